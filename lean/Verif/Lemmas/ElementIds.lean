/-
Consequences of the specifications of linear ids that the element classes share.
-/
import Verif.Lemmas.Element

namespace T8.RTree
variable {T : RTree}

theorem root_uniform_getElem {L i : Nat} (hL : L ≤ T.maxLevel) {x : T.E}
    (h : (T.uniform T.root L)[i]? = some x) : T.Valid x ∧ T.level x = L :=
  (mem_root_uniform hL).1 (List.mem_of_getElem? h)

theorem LinearIdSpec.self {lin : T.E → Nat → Nat} (hlin : T.LinearIdSpec lin) {x : T.E} (hx : T.Valid x) :
    (T.uniform T.root (T.level x))[lin x (T.level x)]? = some x := by
  have := hlin x (T.level x) hx (T.level_le x hx)
  rwa [if_pos (le_refl _), anc_of_level_le (le_refl _)] at this

/-- Every id below the number of elements of a level belongs to exactly one element of this level. -/
theorem bijection_of {lin : T.E → Nat → Nat} {setLin : Nat → Nat → Option T.E} (hlin : T.LinearIdSpec lin)
    (hset : T.SetLinearIdSpec setLin) {L : Nat} (hL : L ≤ T.maxLevel) :
    (∀ id, id < T.count T.root L → ∃ x, setLin L id = some x ∧ T.Valid x ∧ T.level x = L ∧ lin x L = id) ∧
    (∀ x, T.Valid x → T.level x = L → lin x L < T.count T.root L ∧ setLin L (lin x L) = some x) := by
  constructor
  · intro id hid
    rw [count_root] at hid
    have h1 := hset L id hL hid
    have h2 := List.getElem?_eq_getElem hid
    rw [h2] at h1
    obtain ⟨h3, h4⟩ := root_uniform_getElem hL h2
    refine ⟨_, h1, h3, h4, ?_⟩
    have h5 := hlin.self h3
    rw [h4] at h5
    exact pos_unique (nodup_root hL) h5 h2
  · intro x hx hl
    subst hl
    have h1 := hlin.self hx
    obtain ⟨h2, _⟩ := List.getElem?_eq_some_iff.1 h1
    refine ⟨by rw [count_root]; exact h2, ?_⟩
    rw [hset _ _ hL h2, h1]

/-- The successor of an element that is not the last one of its level has the same level and the next id. -/
theorem next_of {lin : T.E → Nat → Nat} {succ : T.E → Option T.E} (hlin : T.LinearIdSpec lin)
    (hsucc : T.SuccessorSpec succ) {e : T.E} (he : T.Valid e)
    (h : lin e (T.level e) + 1 < T.count T.root (T.level e)) :
    ∃ s, succ e = some s ∧ T.Valid s ∧ T.level s = T.level e ∧ lin s (T.level s) = lin e (T.level e) + 1 := by
  rw [count_root] at h
  have h1 := List.getElem?_eq_getElem h
  obtain ⟨h2, h3⟩ := root_uniform_getElem (T.level_le e he) h1
  refine ⟨_, hsucc e _ _ he (hlin.self he) h1, h2, h3, ?_⟩
  have h4 := hlin.self h2
  have key : ∀ {l l' : Nat} {x : T.E}, l = l' → l' ≤ T.maxLevel → (T.uniform T.root l)[lin x l]? = some x →
      (T.uniform T.root l')[lin e l' + 1]? = some x → lin x l = lin e l' + 1 := by
    rintro l _ x rfl hl ha hb
    exact pos_unique (nodup_root hl) ha hb
  exact key h3 (T.level_le e he) h4 h1

end T8.RTree
