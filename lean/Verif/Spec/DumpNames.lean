import Verif.Spec.DumpText
import Verif.Spec.Uri

/-! # The name in a line of ndndump -/

namespace Verif.DumpText

open PingOutput

/-- What one copies from a line to get the name: the last word, up to the question mark with which the parameters of an Interest
begin. -/
def copied (line : Bytes) : Bytes := (((words line).getLast?).getD []).takeWhile (· != 63)

/-- The lines of an output; after the last newline there is none. -/
def outputLines (out : Bytes) : List Bytes := (lines out).dropLast

end Verif.DumpText
