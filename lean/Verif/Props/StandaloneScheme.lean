/-
The standalone hypercube classes implement a lawful scheme, so every theorem about forests over lawful schemes
applies to them.
-/
import Verif.Spec.Scheme
import Verif.Props.Standalone

namespace T8.Standalone
open T8.RTree

/-- The standalone scheme of a hypercube class. -/
def Cls.scheme (c : Cls) : Scheme c.tree where
  isEqual := fun (e f : Elem c.dim) => isEqual e f
  numSiblings := fun (e : Elem c.dim) => numSiblings e
  childId := fun (e : Elem c.dim) => childId c.maxLevel e
  isRefinable := fun (e : Elem c.dim) => isRefinable c.maxLevel e
  linearId := fun (e : Elem c.dim) L => (linearId c.maxLevel e L).toNat
  setLinearId := fun L id => setLinearId c.dim c.maxLevel L (BitVec.ofNat 64 id)
  successor := fun (e : Elem c.dim) => successor c.maxLevel e
  firstDescendant := fun (e : Elem c.dim) L => firstDescendant e L
  lastDescendant := fun (e : Elem c.dim) L => lastDescendant c.maxLevel e L
  compare := fun (e f : Elem c.dim) => compare c.maxLevel e f
  isAncestor := fun (e f : Elem c.dim) => isAncestor c.maxLevel e f
  ancestorId := fun (e : Elem c.dim) l => ancestorId c.maxLevel e l
  nca := fun (e f : Elem c.dim) => nca c.maxLevel e f
  areFamily := fun (fam : List (Elem c.dim)) => areFamily c.maxLevel fam
  countLeavesFromRoot := fun L => (countLeavesFromRoot c.dim L).toInt

/-- The family test of the standalone scheme is right for all arrays. -/
theorem Cls.scheme_exact (c : Cls) : c.scheme.ExactFamilies := fun (fam : List (Elem c.dim)) f0 h0 hlen hv hl => by
  refine C06_standalone_partial c fam ?_ hv hl
  rw [hlen]
  show numSiblings (d := c.dim) f0 = _
  have : 0 < Elem.level (d := c.dim) f0 := hl f0 (List.mem_of_mem_head? h0)
  rw [numSiblings, if_neg (by omega)]

/-- The standalone scheme is lawful. -/
theorem Cls.scheme_lawful (c : Cls) : c.scheme.Lawful where
  isEqual := fun x y _ _ => isEqual_iff (d := c.dim) x y
  numSiblings_pos := fun (e : Elem c.dim) _ => by
    show 0 < numSiblings e
    unfold numSiblings numChildren; split <;> positivity
  numSiblings := fun (e : Elem c.dim) _ (hl : 0 < e.level) => by
    show numSiblings e = numChildren c.dim
    rw [numSiblings, if_neg (by omega)]
  childId := fun (e : Elem c.dim) he (hl : 0 < e.level) => by
    have := (C01_standalone c e he).2 hl
    show childId c.maxLevel e = ((childId c.maxLevel e).toNat : Int)
    omega
  childId_root := by show childId c.maxLevel (root c.dim) ≤ 0; simp [childId, root]
  root_no_family := Or.inl (by show childId c.maxLevel (root c.dim) ≠ 0; simp [childId, root])
  isRefinable := fun (e : Elem c.dim) _ => by
    show isRefinable c.maxLevel e = true ↔ e.level < c.maxLevel
    simp [isRefinable]
  linearId := C02_standalone_position c
  setLinearId := C02_standalone_set c
  successor := C03_standalone c
  descendants := C04_standalone_ends c
  compare := C07_standalone c
  isAncestor := C08_standalone c
  ancestorId := fun (e : Elem c.dim) l he h0 hl => by
    have hl' : l ≤ e.level := hl
    have h1 := (C08_standalone_iterate c e he l hl').2
    have h2 := RTree.valid_level_iter (T := c.tree) (e := e) he (e.level - l) (Nat.sub_le _ _)
    have h3 := (C01_standalone c _ h2.1).2 (by
      have : c.tree.level (c.tree.parent^[e.level - l] e) = e.level - (e.level - l) := h2.2
      show 0 < c.tree.level (c.tree.parent^[e.level - l] e)
      omega)
    show ancestorId c.maxLevel e l = ((childId c.maxLevel ((parent c.maxLevel)^[e.level - l] e)).toNat : Int)
    rw [h1]
    have h4 : 0 ≤ childId c.maxLevel ((parent c.maxLevel)^[e.level - l] e) := h3.2.1
    omega
  nca := C05_standalone c
  areFamily := fun fam f0 h0 hlen hv hl => by
    obtain ⟨b, h1, h2⟩ := c.scheme_exact fam f0 h0 hlen hv hl
    exact ⟨b, h1, fun _ => h2⟩
  countLeavesFromRoot := fun L hL hlt => by
    apply C09_standalone_root_partial
    have h : 0 < c.dim → c.maxLevel < 32 := by cases c <;> simp [Cls.dim, Cls.maxLevel]
    have hlt' : (treeOf c.dim c.maxLevel h).count (root c.dim) L < 2 ^ 63 := hlt
    rw [count_eq_pow, if_neg (by simp [root])] at hlt'
    exact (Nat.pow_lt_pow_iff_right (by omega)).1 hlt'

end T8.Standalone
