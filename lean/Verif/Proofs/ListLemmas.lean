/-! # Small facts about lists used for histories -/

namespace Verif

theorem snoc_split {α : Type} {l : List α} {o x : α} {pre post : List α}
    (h : l ++ [o] = pre ++ x :: post) :
    (post = [] ∧ x = o ∧ pre = l) ∨ (∃ post', post = post' ++ [o] ∧ l = pre ++ x :: post') := by
  rcases List.eq_nil_or_concat post with rfl | ⟨post', y, rfl⟩
  · left
    have := List.append_inj' h rfl
    simp at this
    exact ⟨rfl, this.2.symm, this.1.symm⟩
  · right
    have h2 : l ++ [o] = (pre ++ x :: post') ++ [y] := by simpa using h
    have h3 := List.append_inj' h2 rfl
    simp at h3
    refine ⟨post', by simp [h3.2], h3.1⟩

end Verif
