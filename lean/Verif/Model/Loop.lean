/-
Loops of the C/C++ sources.

A C `while` loop is a partial object: it may not terminate, it may read outside of an array and it may
run into a failing `T8_ASSERT`.  All three outcomes are modelled by `none`, so a theorem of the form
`f x = some r` says: the modelled function terminates, performs no out of bounds access, violates no
assertion, and returns `r`.
-/
import Mathlib.Tactic.Basic

namespace T8

/-- The `while (cond) { body }` loop of C on a state `σ`. `none` is nontermination, a failing assertion
or an out-of-bounds access. (Language construct; used by the models of the loops in /repo.) -/
def whileO {σ : Type _} (cond : σ → Option Bool) (body : σ → Option σ) (s : σ) : Option σ := do
  let b ← cond s
  if b then
    let s' ← body s
    whileO cond body s'
  else
    return s
partial_fixpoint

/-- `T8_ASSERT (b)`: `src/t8.h`. A failing assertion is the outcome `none`. -/
def assertO (b : Prop) [Decidable b] : Option Unit := if b then some () else none

@[simp] theorem assertO_true {b : Prop} [Decidable b] (h : b) : assertO b = some () := by
  simp [assertO, h]

@[simp] theorem assertO_false {b : Prop} [Decidable b] (h : ¬ b) : assertO b = none := by
  simp [assertO, h]

/-- Total correctness rule for `while`: an invariant `I`, and a measure `m` that every iteration
decreases. -/
theorem whileO_spec {σ : Type _} {cond : σ → Option Bool} {body : σ → Option σ} (I : σ → Prop)
    (m : σ → Nat)
    (h : ∀ s, I s → cond s = some false ∨
      (cond s = some true ∧ ∃ s', body s = some s' ∧ I s' ∧ m s' < m s)) :
    ∀ s, I s → ∃ s', whileO cond body s = some s' ∧ I s' ∧ cond s' = some false := by
  intro s
  induction hn : m s using Nat.strongRecOn generalizing s with
  | _ n ih =>
    intro hI
    rcases h s hI with hc | ⟨hc, s', hb, hI', hm⟩
    · refine ⟨s, ?_, hI, hc⟩
      rw [whileO]; simp [hc]
    · obtain ⟨r, hr, hIr, hcr⟩ := ih (m s') (hn ▸ hm) s' rfl hI'
      refine ⟨r, ?_, hIr, hcr⟩
      rw [whileO]; simp [hc, hb, hr]

/-- Partial correctness rule for `while`: if the loop ends, the invariant holds at the end. -/
theorem whileO_inv {σ : Type} {cond : σ → Option Bool} {body : σ → Option σ} (I : σ → Prop)
    (h : ∀ s s', I s → cond s = some true → body s = some s' → I s') :
    ∀ s r, whileO cond body s = some r → I s → I r ∧ cond r = some false := by
  apply whileO.partial_correctness
  intro w ih s r hr hI
  cases hc : cond s with
  | none => simp [hc] at hr
  | some b =>
    cases b with
    | false => simp [hc] at hr; subst hr; exact ⟨hI, hc⟩
    | true =>
      cases hb : body s with
      | none => simp [hc, hb] at hr
      | some s' =>
        simp [hc, hb] at hr
        exact ih s' r hr (h s s' hI hc hb)

/-- Reading entry `i` of an array; `none` when `i` is out of bounds. -/
def rd {α : Type _} (a : List α) (i : Int) : Option α := if i < 0 then none else a[i.toNat]?

theorem mapM_some {α β : Type} {f : α → Option β} {g : α → β} :
    ∀ {l : List α}, (∀ x ∈ l, f x = some (g x)) → l.mapM f = some (l.map g)
  | [], _ => rfl
  | x :: l, h => by
    rw [List.mapM_cons, h x (by simp), mapM_some (fun y hy => h y (by simp [hy]))]
    rfl

end T8
