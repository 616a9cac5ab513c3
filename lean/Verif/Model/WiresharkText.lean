import Verif.Model.Wireshark

/-!
# The texts that the Wireshark dissector adds to its items

`tools/dissect-wireshark/ndn.lua`: `addInfo`, `addSummary` and the end of the loop over the packets. How Wireshark itself shows an item with
a field (its label and the format of numbers) is not modelled.
-/

namespace Verif.Wireshark

/-- `..` with `block.value`: numbers and objects of class `UInt64` are written in decimal. -/
def Val.string : Val → Bytes
  | .text s => s
  | .num n => decimal n
  | .object n => decimal n
  | .generic label type length =>
    ascii label ++ ascii ", Type: " ++ decimal type ++ ascii ", Length: " ++ decimal length

/-- The entries of `NDN_DICT` with `summary = true` (ndn.lua:197-243). -/
def summaryTypes : List Nat := [5, 30, 6, 20, 22, 28, 100, 800, 820]

/-- `NDN_DICT[block.type].summary ~= nil`. -/
def Block.hasSummary (b : Block) : Bool := decide (b.typeLen ≠ 9) && summaryTypes.contains b.type

/-- `table.concat(summary, ", ")`. -/
def joinParts (l : List Bytes) : Bytes := List.intercalate (ascii ", ") l

mutual
/-- `block.value` after `addSummary` (ndn.lua:299-326), in decimal if it is a number. The second queue (ndn.lua:465-492) calls `addSummary`
for every block after it has called it for the elements of the block; here this is the order of the recursion. -/
def Tree.shownText : Tree → Option Bytes
  | .node b v parsed es =>
    match v with
    | some v => some v.string
    | none => if parsed && b.hasSummary && decide (summaryParts es ≠ []) then some (joinParts (summaryParts es)) else none

/-- ndn.lua:309-318: the list `summary` in `addSummary`. -/
def summaryParts : List Tree → List Bytes
  | [] => []
  | e :: es =>
    match e.shownText, lookup e.block with
    | some s, some info => (ascii info.name ++ ascii ": " ++ s) :: summaryParts es
    | _, _ => summaryParts es
end

/-- ndn.lua:299-326: `block.summary`. -/
def Tree.summary (t : Tree) : Option Bytes :=
  if t.parsed && t.block.hasSummary && decide (summaryParts t.elements ≠ []) then some (joinParts (summaryParts t.elements)) else none

/-- ndn.lua:285 and 325: what is appended to the text of the item of the block. -/
def Tree.appended (t : Tree) : Bytes :=
  (if (lookup t.block).any (fun i => i.fmt.isNone) then
    ascii ", Type: " ++ decimal t.block.type ++ ascii ", Length: " ++ decimal t.block.length else []) ++
  (match t.summary with
  | none => []
  | some s => ascii ", " ++ s)

/-- ndn.lua:494-501: what is appended to "Named Data Networking (NDN)" for a packet. -/
def packetText (t : Tree) : Bytes :=
  match lookup t.block with
  | none => []
  | some info =>
    match t.summary with
    | some s => ascii ", " ++ ascii info.name ++ ascii ", " ++ s
    | none => ascii ", " ++ ascii info.name

end Verif.Wireshark
