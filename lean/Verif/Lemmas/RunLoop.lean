/-
Evaluation of loops for concrete cases.
-/
import Verif.Model.Loop

namespace T8

/-- At most `n` iterations of a loop; `none` if these do not suffice. -/
def runO {σ : Type} (cond : σ → Option Bool) (body : σ → Option σ) : Nat → σ → Option (Option σ)
  | 0, _ => none
  | n + 1, s =>
    match cond s with
    | none => some none
    | some false => some (some s)
    | some true =>
      match body s with
      | none => some none
      | some s' => runO cond body n s'

theorem whileO_of_run {σ : Type} {cond : σ → Option Bool} {body : σ → Option σ} (n : Nat) {s : σ} {r : Option σ}
    (h : runO cond body n s = some r) : whileO cond body s = r := by
  induction n generalizing s with
  | zero => cases h
  | succ n ih =>
    rw [runO] at h
    rw [whileO]
    cases hc : cond s with
    | none => rw [hc] at h; exact Option.some.inj h
    | some b =>
      cases b with
      | false => rw [hc] at h; exact Option.some.inj h
      | true =>
        rw [hc] at h
        cases hb : body s with
        | none => rw [hb] at h; exact Option.some.inj h
        | some s' => rw [hb] at h; simpa using ih h

end T8
