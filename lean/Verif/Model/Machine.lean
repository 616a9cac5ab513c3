/-! # Executions of a component -/

namespace Verif

/-- A component: initial state, what an event does, and which events the environment can deliver. -/
structure Machine (σ : Type) (ε : Type) where
  init : σ
  step : σ → ε → σ
  enabled : σ → ε → Prop

namespace Machine

variable {σ ε : Type} (M : Machine σ ε)

/-- `M.Run es s`: the events `es`, each possible at its time, lead from the initial state to `s`. -/
inductive Run : List ε → σ → Prop
  | nil : Run [] M.init
  | snoc {es s} (e : ε) : Run es s → M.enabled s e → Run (es ++ [e]) (M.step s e)

/-- `M.RunFrom s es s'`: the events `es` lead from `s` to `s'`. -/
inductive RunFrom (s : σ) : List ε → σ → Prop
  | nil : RunFrom s [] s
  | snoc {es s'} (e : ε) : RunFrom s es s' → M.enabled s' e → RunFrom s (es ++ [e]) (M.step s' e)

variable {M}

theorem Run.extend {es s es' s'} (h : M.Run es s) (h' : M.RunFrom s es' s') :
    M.Run (es ++ es') s' := by
  induction h' with
  | nil => simpa using h
  | snoc e _ he ih => rw [← List.append_assoc]; exact Run.snoc e ih he

theorem RunFrom.cons {s : σ} (e : ε) (he : M.enabled s e) {es s'} (h : M.RunFrom (M.step s e) es s') :
    M.RunFrom s (e :: es) s' := by
  induction h with
  | nil => exact RunFrom.snoc (es := []) e RunFrom.nil he
  | snoc e' _ he' ih => exact RunFrom.snoc e' ih he'

/-- An invariant that holds initially and is kept by every possible event holds always. -/
theorem Run.invariant {P : σ → Prop} (h0 : P M.init)
    (hs : ∀ s e, P s → M.enabled s e → P (M.step s e)) {es s} (h : M.Run es s) : P s := by
  induction h with
  | nil => exact h0
  | snoc e _ he ih => exact hs _ _ ih he

theorem RunFrom.invariant {s : σ} {P : σ → Prop} (h0 : P s)
    (hs : ∀ s e, P s → M.enabled s e → P (M.step s e)) {es s'} (h : M.RunFrom s es s') : P s' := by
  induction h with
  | nil => exact h0
  | snoc e _ he ih => exact hs _ _ ih he

/-- Executable form of `Run` for machines with decidable enabledness. -/
def exec (M : Machine σ ε) [∀ s e, Decidable (M.enabled s e)] : σ → List ε → Option σ
  | s, [] => some s
  | s, e :: es => if M.enabled s e then exec M (M.step s e) es else none

theorem exec_append_run [∀ s e, Decidable (M.enabled s e)] {es0 s0 es s}
    (h0 : M.Run es0 s0) (h : M.exec s0 es = some s) : M.Run (es0 ++ es) s := by
  induction es generalizing es0 s0 with
  | nil => simp [exec] at h; subst h; simpa using h0
  | cons e es ih =>
    simp only [exec] at h
    split at h
    · rename_i he
      have := ih (Run.snoc e h0 he) h
      simpa using this
    · simp at h

theorem exec_run [∀ s e, Decidable (M.enabled s e)] {es s}
    (h : M.exec M.init es = some s) : M.Run es s := by
  simpa using exec_append_run Run.nil h

end Machine
end Verif
