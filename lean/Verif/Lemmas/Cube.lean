/-
The refinement tree of the quadrilaterals and hexahedra of the default scheme.
-/
import Verif.Model.Cube
import Verif.Lemmas.StandaloneFaces2
import Verif.Lemmas.Regular

namespace T8.Cube
open T8.RTree
open T8.Standalone (Elem getLen Elem.ext')

variable {d M : Nat}

theorem Cls.root_small (c : Cls) : c.rootLevel ≤ 30 := by
  cases c with
  | quad => exact le_refl 30
  | hex M h => exact h.2

theorem Cls.max_le (c : Cls) : c.maxLevel ≤ c.rootLevel := by
  cases c with
  | quad => show 29 ≤ 30; omega
  | hex M h => exact h.1

theorem Cls.small (c : Cls) : 0 < c.dim → c.rootLevel < 31 := fun _ => by have := c.root_small; omega

theorem Cls.small' (c : Cls) : 0 < c.dim → c.rootLevel < 32 := fun _ => by have := c.root_small; omega

theorem Cls.dim_cases (c : Cls) : c.dim = 2 ∨ c.dim = 3 := by cases c <;> simp

/-- Setting the bit of the next level and adding its value is the same. -/
theorem child_eq (h : 0 < d → M < 32) {e : Elem d} (he : Standalone.Valid M e) (hl : e.level < M) (i : Nat) :
    child M e i = Standalone.child M e i := by
  refine Elem.ext' (fun k => ?_) rfl
  apply BitVec.eq_of_getLsbD_eq
  intro j hj
  rw [Standalone.child_bit h he hl]
  simp only [child]
  by_cases hb : i.testBit k.val = true
  · rw [if_pos ((Standalone.and_shift_ne_zero _ _).2 hb), BitVec.getLsbD_or, Standalone.getLsbD_getLen (h k.pos)]
    simp [hb]
  · rw [if_neg (fun h' => hb ((Standalone.and_shift_ne_zero _ _).1 h'))]
    simp [hb]

/-- `e` is an element of the tree: an aligned cube in the root cube whose level is at most the maximum level. -/
def Valid (c : Cls) (e : Elem c.dim) : Prop := Standalone.Valid c.rootLevel e ∧ e.level ≤ c.maxLevel

theorem Valid.child_eq {c : Cls} {e : Elem c.dim} (he : Valid c e) (hl : e.level < c.maxLevel) (i : Nat) :
    child c.rootLevel e i = Standalone.child c.rootLevel e i :=
  Cube.child_eq c.small' he.1 (by have := c.max_le; omega) i

theorem Valid.lt_root {c : Cls} {e : Elem c.dim} (_ : Valid c e) (hl : e.level < c.maxLevel) : e.level < c.rootLevel := by
  have := c.max_le; omega

/-- The refinement tree. -/
@[reducible] def Cls.tree (c : Cls) : RTree where
  E := Elem c.dim
  Valid := Valid c
  maxLevel := c.maxLevel
  level := Elem.level
  root := Standalone.root c.dim
  nc := fun _ => numChildren c.dim
  child := child c.rootLevel
  parent := Standalone.parent c.rootLevel
  childId := fun e => Standalone.cubeId c.rootLevel e e.level
  valid_root := ⟨Standalone.valid_root, Nat.zero_le _⟩
  level_root := rfl
  root_unique := fun _ he hl => Standalone.root_unique he.1 hl
  level_le := fun _ he => he.2
  nc_pos := fun _ _ => Nat.two_pow_pos c.dim
  valid_child := fun e i he hl _ => by
    rw [he.child_eq hl]
    exact ⟨Standalone.valid_child c.small' he.1 (he.lt_root hl) i, hl⟩
  level_child := fun _ _ _ _ _ => rfl
  parent_child := fun e i he hl _ => by
    rw [he.child_eq hl]
    exact Standalone.parent_child c.small' he.1 (he.lt_root hl) i
  childId_child := fun e i he hl hi => by
    rw [he.child_eq hl]
    have := Standalone.childId_child c.small' he.1 (he.lt_root hl) hi
    rwa [Standalone.childId_eq (by simp [Standalone.child])] at this
  valid_parent := fun e he hl => ⟨Standalone.valid_parent c.small' he.1 hl, by
    have := he.2
    show e.level - 1 ≤ c.maxLevel
    omega⟩
  level_parent := fun e _ hl => by simp only [Standalone.parent]; omega
  childId_lt := fun e _ hl => by
    have := Standalone.childId_lt c.small' hl
    rwa [Standalone.childId_eq hl] at this
  child_parent := fun e he hl => by
    have hp : Valid c (Standalone.parent c.rootLevel e) := ⟨Standalone.valid_parent c.small' he.1 hl, by
      have := he.2
      show e.level - 1 ≤ c.maxLevel
      omega⟩
    rw [hp.child_eq (by have := he.2; show e.level - 1 < c.maxLevel; omega)]
    have := Standalone.child_parent c.small' he.1 hl
    rwa [Standalone.childId_eq hl] at this

theorem Cls.regular (c : Cls) : c.tree.Regular (2 ^ c.dim) := fun _ _ => rfl

theorem Cls.bits (c : Cls) : c.dim * c.maxLevel < 63 := by
  cases c <;> simp [Cls.dim, Cls.maxLevel]

/-- The number of elements of a level fits into 63 bits. -/
theorem Cls.count_lt (c : Cls) {L : Nat} (hL : L ≤ c.maxLevel) : c.tree.count c.tree.root L < 2 ^ 63 := by
  rw [c.regular.count_root hL, ← Nat.pow_mul]
  exact Nat.pow_lt_pow_right (by omega) (lt_of_le_of_lt (Nat.mul_le_mul_left _ hL) c.bits)

/-- Descendants in the sense of the standalone tree. -/
theorem Cls.desc_standalone (c : Cls) {e x : Elem c.dim} (he : Valid c e) (h : c.tree.Desc e x) :
    (Standalone.treeOf c.dim c.rootLevel c.small').Desc e x := by
  refine RTree.Desc.rec (T := c.tree) (motive := fun x _ => (Standalone.treeOf c.dim c.rootLevel c.small').Desc e x) RTree.Desc.refl
    ?_ h
  intro y i hy hl hi ih
  have hv : Valid c y := hy.valid he
  have hl' : Elem.level (d := c.dim) y < c.maxLevel := hl
  have := RTree.Desc.step (T := Standalone.treeOf c.dim c.rootLevel c.small') (i := i) ih (hv.lt_root hl') hi
  have h2 : child c.rootLevel y i = Standalone.child c.rootLevel y i := hv.child_eq hl' i
  show (Standalone.treeOf c.dim c.rootLevel c.small').Desc e (child c.rootLevel y i)
  rw [h2]
  exact this

/-- A descendant lies in the box of the element. -/
theorem Cls.desc_box (c : Cls) {e x : Elem c.dim} (he : Valid c e) (h : c.tree.Desc e x) (i : Fin c.dim) :
    (e.coords i).toNat ≤ (x.coords i).toNat ∧
      (x.coords i).toNat + Standalone.side c.rootLevel x ≤ (e.coords i).toNat + Standalone.side c.rootLevel e :=
  Standalone.desc_box c.small' he.1 (c.desc_standalone he h) i

/-- Coordinates of a child. -/
theorem Cls.child_toNat (c : Cls) {e : Elem c.dim} (he : Valid c e) (hl : e.level < c.maxLevel) (k : Nat) (i : Fin c.dim) :
    ((child c.rootLevel e k).coords i).toNat =
      (e.coords i).toNat + (if k.testBit i then Standalone.side c.rootLevel (child c.rootLevel e k) else 0) := by
  rw [he.child_eq hl]
  exact Standalone.child_toNat c.small' he.1 (he.lt_root hl) k i

/-- An element in the box of a coarser element is a descendant. -/
theorem Cls.desc_of_box (c : Cls) {e x : Elem c.dim} (he : Valid c e) (hx : Valid c x) (hl : e.level ≤ x.level)
    (hb : ∀ i, (e.coords i).toNat ≤ (x.coords i).toNat ∧
      (x.coords i).toNat < (e.coords i).toNat + Standalone.side c.rootLevel e) : c.tree.Desc e x := by
  have hva : Valid c (c.tree.anc x e.level) := valid_anc (T := c.tree) hx _
  have hla : Elem.level (d := c.dim) (c.tree.anc x e.level) = e.level := level_anc (T := c.tree) hx hl
  have hda : c.tree.Desc (c.tree.anc x e.level) x := desc_anc (T := c.tree) hx
  have heq : c.tree.anc x e.level = e := by
    refine Elem.ext' (d := c.dim) (fun i => BitVec.eq_of_toNat_eq ?_) hla
    have h1 := c.desc_box hva hda i
    have h2 := hb i
    have hs : Standalone.side c.rootLevel (d := c.dim) (c.tree.anc x e.level) = Standalone.side c.rootLevel e := by
      simp only [Standalone.side, hla]
    have hsx := Standalone.side_pos (M := c.rootLevel) x
    rw [hs] at h1
    have d1 := (hva.1.2 i).2
    rw [hla] at d1
    exact Standalone.eq_of_dvd_of_lt (s := Standalone.side c.rootLevel e) (x := (x.coords i).toNat) d1 (he.1.2 i).2 h1.1
      (by omega) h2.1 h2.2
  rwa [heq] at hda

/-- The space-filling curve is monotone in the coordinates. -/
theorem Cls.morton_mono (c : Cls) {x y : Elem c.dim} (hx : Valid c x) (hy : Valid c y) (hl : x.level = y.level)
    (hc : ∀ i, (x.coords i).toNat ≤ (y.coords i).toNat) : x = y ∨ c.tree.Before x y := by
  rcases position_cases (T := c.tree) hx hy with h1 | h1 | h1 | h1
  · exact Or.inl (Desc.eq_of_level (T := c.tree) hx h1 (le_of_eq hl.symm)).symm
  · exact Or.inl (Desc.eq_of_level (T := c.tree) hy h1 (le_of_eq hl))
  · exact Or.inr h1
  · exfalso
    obtain ⟨a, i, j, va, la, hij, hj, di, dj⟩ := h1
    have la' : Elem.level (d := c.dim) a < c.maxLevel := la
    have vi : Valid c (child c.rootLevel a i) := c.tree.valid_child a i va la (lt_trans hij hj)
    have vj : Valid c (child c.rootLevel a j) := c.tree.valid_child a j va la hj
    have : j ≤ i := by
      apply Standalone.le_of_testBit_imp
      intro k hk
      have hkd : k < c.dim := by
        by_contra hkd
        have : j < 2 ^ k := lt_of_lt_of_le hj (Nat.pow_le_pow_right (by omega) (by omega))
        rw [Nat.testBit_lt_two_pow this] at hk
        cases hk
      by_contra hik
      have b1 := c.desc_box vi di ⟨k, hkd⟩
      have b2 := c.desc_box vj dj ⟨k, hkd⟩
      rw [c.child_toNat va la'] at b1 b2
      have hs : Standalone.side c.rootLevel (child (d := c.dim) c.rootLevel a i) =
        Standalone.side c.rootLevel (child (d := c.dim) c.rootLevel a j) := rfl
      have hik' : (i.testBit k) = false := by simpa using hik
      simp only [hk, hik', if_true] at b1 b2
      have := hc ⟨k, hkd⟩
      have := Standalone.side_pos (M := c.rootLevel) y
      simp at b1
      omega
    omega

/-- The parent is determined by its level and its box. -/
theorem Cls.parent_of_box (c : Cls) {p e : Elem c.dim} (hp : Valid c p) (he : Valid c e) (hl : p.level + 1 = e.level)
    (hb : ∀ i, (p.coords i).toNat ≤ (e.coords i).toNat ∧
      (e.coords i).toNat < (p.coords i).toNat + Standalone.side c.rootLevel p) : Standalone.parent c.rootLevel e = p :=
  Standalone.parent_of_box c.small' hp.1 he.1 hl hb

end T8.Cube
