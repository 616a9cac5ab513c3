import Verif.Model.PingTime

/-! # Vocabulary for the statements about times -/

namespace Verif.PingTime

open Ping

/-- The options that the command line can give, except that the interval and the timeout, in nanoseconds, are less than 2^63. -/
structure InRange (o : Opts) (interval : Nat) : Prop where
  seq : o.startSeq < 2 ^ 64
  count : o.nPings ≠ 0
  timeout : 0 ≤ o.timeout
  timeoutNs : o.timeout.toNat * 1000000 < 2 ^ 63
  intervalNs : interval * 1000000 < 2 ^ 63

/-- When a program that sends `o.nPings` pings has ended, at the latest, in nanoseconds: the intervals between the pings, and
the timeout of the last one, if each timer fires not later than `d` nanoseconds after it was due. -/
def bound (o : Opts) (interval d : Nat) : Nat :=
  (o.nPings.toNat - 1) * (interval * 1000000 + d) + o.timeout.toNat * 1000000 + d

end Verif.PingTime
