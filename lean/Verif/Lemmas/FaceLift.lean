/-
Lemmas for C54: the neighbors of the ancestors. If the neighbor of an element is not a sibling then the parents are neighbors, so an
ancestor that does not contain the neighbor has a face that contains the common face.
-/
import Verif.Spec.Face
import Verif.Lemmas.RTree

namespace T8.LeafNeighbor
open T8.RTree

variable {T : RTree} {In : T.E → Nat → T.E → Nat → Prop} {F : FaceScheme T}

/-- The neighbor inside of the tree is a sibling, or the face lies in a face of the parent and the parents are neighbors. -/
def Lifts (F : FaceScheme T) (In : T.E → Nat → T.E → Nat → Prop) (neighbor : T.E → Nat → Option (T.E × Nat)) : Prop :=
  ∀ e f m g, T.Valid e → f < F.numFaces e → 0 < T.level e → neighbor e f = some (m, g) →
    T.parent m = T.parent e ∨ ∃ f' g', In e f (T.parent e) f' ∧ neighbor (T.parent e) f' = some (T.parent m, g')

/-- Descendants of `x` of a deeper level have their parent below `x`. -/
theorem desc_parent {x n : T.E} (hx : T.Valid x) (hn : T.Valid n) (hl : T.level x < T.level n) : T.Desc x n ↔ T.Desc x (T.parent n) := by
  constructor
  · intro hd
    have h1 := hd.anc_eq hx
    have hlp := T.level_parent n hn (by omega)
    have h2 : T.anc n (T.level x) = T.anc (T.parent n) (T.level x) := by
      rw [RTree.anc, RTree.anc, show T.level n - T.level x = (T.level (T.parent n) - T.level x) + 1 by omega]
      rfl
    have h3 := desc_anc (T.valid_parent n hn (by omega)) (l := T.level x)
    rw [← h2, h1] at h3
    exact h3
  · intro hd
    have h1 := T.child_parent n hn (by omega)
    have h2 := T.childId_lt n hn (by omega)
    have h3 := T.level_parent n hn (by omega)
    have h4 := T.level_le n hn
    have := Desc.child_self (T := T) (a := T.parent n) (i := T.childId n) (by omega) h2
    rw [h1] at this
    exact hd.trans this

/-- An ancestor of the element that does not contain the neighbor has a face that contains the common face. -/
theorem Lifts.up (hF : F.Lawful In) {neighbor : T.E → Nat → Option (T.E × Nat)} (hL : Lifts F In neighbor)
    (hv : ∀ e f m g, T.Valid e → f < F.numFaces e → neighbor e f = some (m, g) → T.Valid m ∧ T.level m = T.level e)
    {x : T.E} (hx : T.Valid x) {n e : T.E} {f g : Nat} (hn : T.Valid n) (hf : f < F.numFaces n) (hd : T.Desc x n)
    (h : neighbor n f = some (e, g)) (hxe : ¬ T.Desc x e) : ∃ k, In n f x k := by
  have hlx := hd.level_le hx
  induction hk : T.level n - T.level x generalizing n e f g with
  | zero =>
    have : n = x := hd.eq_of_level hx (by omega)
    subst this
    exact ⟨f, hF.refl n f hx hf⟩
  | succ k ih =>
    obtain ⟨he, hle⟩ := hv n f e g hn hf h
    have hlp := T.level_parent n hn (by omega)
    have hdp := (desc_parent hx hn (by omega)).1 hd
    have hxe' : ¬ T.Desc x (T.parent e) := fun hc => hxe ((desc_parent hx he (by omega)).2 hc)
    rcases hL n f e g hn hf (by omega) h with hp | ⟨f', g', h1, h2⟩
    · rw [hp] at hxe'
      exact absurd hdp hxe'
    · obtain ⟨j, hj⟩ := ih (T.valid_parent n hn (by omega)) (hF.bounds _ _ _ _ h1).2 hdp h2 hxe' (by omega) (by omega)
      exact ⟨j, hF.trans _ _ _ _ _ _ h1 hj⟩

end T8.LeafNeighbor
