import Verif.Spec.Cli
import Verif.Spec.Uri
import Verif.Model.Producer

/-! # Version components at the end of names -/

namespace Verif.PutVersion

/-- A component of the type for versions (54) that is not a number, as a number has 1, 2, 4 or 8 bytes. -/
def BadVersion (c : Comp) : Prop := c.type = 54 ∧ c.value.length ∉ [1, 2, 4, 8]

/-- A version: a number in a component of the type for versions, or in a generic component after the byte 0xFD. -/
def GoodVersion (c : Comp) : Prop :=
  ∃ v : Bytes, v.length ∈ [1, 2, 4, 8] ∧ (c = ⟨54, v⟩ ∨ c = ⟨8, 0xFD :: v⟩)

end Verif.PutVersion
