import Verif.Model.Basic

/-! # Vocabulary shared by the statements about the pipelines -/

namespace Verif

/-- `p` is what a consistent producer of the object with segments `segs` would send for segment
number `k`: an existing segment with its content; and if there is a FinalBlockId, it is the number
of the last segment. -/
def Consistent (segs : List Bytes) (k : Nat) (p : Pkt) : Prop :=
  segs[k]? = some p.content ∧ (p.final = .absent ∨ p.final = .seg (segs.length - 1))

instance (segs : List Bytes) (k : Nat) (p : Pkt) : Decidable (Consistent segs k p) := by
  unfold Consistent; infer_instance

end Verif
