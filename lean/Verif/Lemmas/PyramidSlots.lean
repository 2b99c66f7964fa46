/-
Lemmas about the default pyramids: the tetrahedra of the cubes and the elements that consist of them.

Every pyramid consists of two of the six tetrahedra of its cube. Their parents in the sense of tetrahedra belong to the
parent of the pyramid, so the elements of the tree can be read off the types of these ancestors.
-/
import Verif.Lemmas.PyramidNca
import Verif.Lemmas.SimplexUnique
import Verif.Model.PyramidFaces

namespace T8.Pyramid
open T8.RTree T8.Bits
open T8.Simplex (look Cls)

abbrev S := Simplex.Elem 3

abbrev Al (p : S) : Prop := Simplex.Aligned .tet p

/-- The ancestor `n` levels above, in the sense of tetrahedra. -/
def up : Nat → S → S
  | 0, p => p
  | n + 1, p => up n (Simplex.parent .tet p)

/-- The type of the ancestor of level `i`. -/
def ct (p : S) (i : Nat) : Nat := (up (p.level - i) p).type

theorem parent_level (p : S) : (Simplex.parent .tet p).level = p.level - 1 := rfl

theorem ct_self (p : S) : ct p p.level = p.type := by rw [ct, Nat.sub_self]; rfl

theorem ct_parent {p : S} {i : Nat} (h : i < p.level) : ct p i = ct (Simplex.parent .tet p) i := by
  rw [ct, ct, parent_level, show p.level - i = (p.level - 1 - i) + 1 by omega]
  rfl

theorem up_aligned {p : S} (hp : Al p) {n : Nat} (hn : n ≤ p.level) : Al (up n p) := by
  induction n generalizing p with
  | zero => exact hp
  | succ n ih =>
    exact ih (Simplex.aligned_parent (c := .tet) hp (by show 0 < p.level; omega)) (by rw [parent_level]; omega)

theorem ct_lt {p : S} (hp : Al p) (i : Nat) : ct p i < 6 := (up_aligned hp (Nat.sub_le _ _)).2

theorem cubeid_parent {p : S} {k : Nat} (h1 : 0 < k) (hk : k < p.level) (hl : p.level ≤ 21) :
    Simplex.computeCubeid .tet (Simplex.parent .tet p) k = Simplex.computeCubeid .tet p k := by
  refine Simplex.cid_ext (c := .tet) (Simplex.cubeid_lt (c := .tet) _ _) (Simplex.cubeid_lt (c := .tet) _ _) fun i => ?_
  rw [Simplex.cubeid_testBit (c := .tet) _ (by omega), Simplex.cubeid_testBit (c := .tet) _ (by omega)]
  have := Standalone.parent_bit (M := 21) h32 (Simplex.Elem.cube p) i (21 - k)
  rw [show ((Standalone.parent 21 (Simplex.Elem.cube p)).coords i).getLsbD (21 - k) =
    ((Simplex.parent .tet p).x i).getLsbD (Cls.tet.maxLevel - k) from rfl] at this
  rw [this, decide_eq_true (by show 21 - p.level ≠ 21 - k; omega), Bool.and_true]
  rfl

theorem ct_step {p : S} (hp : Al p) {k : Nat} (hk : k < p.level) :
    look (Simplex.cidTypeToParenttype .tet) (Simplex.computeCubeid .tet p (k + 1)) (ct p (k + 1)) = ct p k := by
  induction hn : p.level - (k + 1) generalizing p with
  | zero =>
    have h : k + 1 = p.level := by omega
    rw [h, ct_self, ct_parent hk]
    have : k = (Simplex.parent .tet p).level := by rw [parent_level]; omega
    rw [this, ct_self]
    rfl
  | succ n ih =>
    have hpl : 0 < p.level := by omega
    rw [ct_parent (by omega : k + 1 < p.level), ct_parent hk,
      ← cubeid_parent (p := p) (by omega) (by omega) hp.1.1]
    exact ih (Simplex.aligned_parent (c := .tet) hp hpl) (by rw [parent_level]; omega) (by rw [parent_level]; omega)

/-- The order of the axes of the ancestor. -/
theorem ct_rank {p : S} (hp : Al p) {l : Nat} (hl : l ≤ p.level) (i j : Fin 3) :
    Simplex.rank .tet (ct p l) i < Simplex.rank .tet (ct p l) j ↔ Simplex.Order (c := .tet) p l i j :=
  Simplex.chain_rank (c := .tet) hp (t := ct p) (ct_self p) (fun k _ => ct_lt hp k) hl (fun _ _ hk => ct_step hp hk) i j

/-! ### The root and the pyramids -/

/-- Inside of the root. -/
def InP (p : S) : Prop := ct p 0 = 1 ∨ ct p 0 = 2

/-- No ancestor has type 0 or 3: the tetrahedron is part of a pyramid. -/
def Cl (p : S) : Prop := ∀ i ≤ p.level, ct p i ≠ 0 ∧ ct p i ≠ 3

theorem inP_parent {p : S} (h : 0 < p.level) : InP p ↔ InP (Simplex.parent .tet p) := by
  rw [InP, InP, ct_parent h]

theorem cl_parent {p : S} (h : 0 < p.level) : Cl p ↔ (p.type ≠ 0 ∧ p.type ≠ 3) ∧ Cl (Simplex.parent .tet p) := by
  constructor
  · intro hc
    refine ⟨by rw [← ct_self p]; exact hc _ (le_refl _), fun i hi => ?_⟩
    rw [parent_level] at hi
    rw [← ct_parent (by omega)]
    exact hc i (by omega)
  · rintro ⟨h1, h2⟩ i hi
    by_cases hi2 : i = p.level
    · rw [hi2, ct_self]; exact h1
    · rw [ct_parent (by omega)]
      exact h2 i (by rw [parent_level]; omega)

/-- Part of an element. -/
def part (e : Elem) (t : Nat) : S := ⟨e.tet.x, e.level, t⟩

theorem slots_lt : ∀ b < 8, ∀ t ∈ slots b, t < 6 ∧ (6 ≤ b → t ≠ 0 ∧ t ≠ 3) ∧ (b < 6 → t = b) := by decide +kernel

theorem part_aligned {e : Elem} (he : Good e) {t : Nat} (ht : t ∈ slots e.type) : Al (part e t) :=
  ⟨he.cube, (slots_lt _ (type_lt he) t ht).1⟩

theorem slots_type : ∀ b < 8, ∀ i < (if 6 ≤ b then 10 else 8), 
    (b < 6 → look parenttypeIlocToType b i < 6) ∧ (6 ≤ b → look parenttypeIlocToType b i < 6 →
      look parenttypeIlocToType b i = 0 ∨ look parenttypeIlocToType b i = 3) := by decide +kernel

/-- The parent of a part is a part of the parent. -/
theorem part_parent {e : Elem} (he : Valid e) (hl : 0 < e.level) {t : Nat} (ht : t ∈ slots e.type) :
    ∃ t' ∈ slots (parent e).type, Simplex.parent .tet (part e t) = part (parent e) t' := by
  obtain ⟨p, i, p1, p2, p3, rfl⟩ := valid_cases he hl
  rw [parent_child p1.good p2 p3]
  rw [(child_cube p1.good p2 p3).2.1] at ht
  have p3' := p3
  rw [numChildren_eq] at p3'
  obtain ⟨h1, h2⟩ := slots_parent _ (type_lt p1.good) i p3' t ht
  refine ⟨_, h2, Simplex.Elem.ext' ?_ ?_⟩
  · show Standalone.parent 21 (child p i).cube = p.cube
    rw [← parent_cube, parent_child p1.good p2 p3]
  · show look (Simplex.cidTypeToParenttype .tet) (Simplex.computeCubeid .tet (child p i).tet (child p i).level) t = _
    rw [← cubeid_eq, child_level, cubeid_child p1.good p2 p3]
    exact ((tet_tables t h1).1 _ (child_cube p1.good p2 p3).2.2).symm

theorem part_inP {e : Elem} (he : Valid e) {t : Nat} (ht : t ∈ slots e.type) : InP (part e t) := by
  induction hn : e.level generalizing e t with
  | zero =>
    have h := tree.root_unique e he hn
    subst h
    have : t = 1 ∨ t = 2 := by
      have h2 : t ∈ [1, 2] := ht
      simpa using h2
    exact this
  | succ n ih =>
    obtain ⟨t', h1, h2⟩ := part_parent he (by omega) ht
    have hpl : (parent e).level = n := by
      have : (parent e).cube.level = e.level - 1 := by rw [parent_cube]; rfl
      exact this.trans (by omega)
    rw [inP_parent (by show 0 < e.level; omega), h2]
    exact ih (tree.valid_parent e he (by show 0 < e.level; omega)) h1 hpl

theorem part_cl {e : Elem} (he : Valid e) {t : Nat} (ht : t ∈ slots e.type) : Cl (part e t) ↔ 6 ≤ e.type := by
  induction hn : e.level generalizing e t with
  | zero =>
    have h := tree.root_unique e he hn
    subst h
    have h2 : t = 1 ∨ t = 2 := by
      have h2 : t ∈ [1, 2] := ht
      simpa using h2
    refine ⟨fun _ => by decide, fun _ i hi => ?_⟩
    have : i = 0 := Nat.le_zero.1 hi
    subst this
    rcases h2 with rfl | rfl <;> decide
  | succ n ih =>
    obtain ⟨t', h1, h2⟩ := part_parent he (by omega) ht
    have hpl : (parent e).level = n := by
      have : (parent e).cube.level = e.level - 1 := by rw [parent_cube]; rfl
      exact this.trans (by omega)
    have vp : Valid (parent e) := tree.valid_parent e he (by show 0 < e.level; omega)
    rw [cl_parent (by show 0 < e.level; omega), h2, ih vp h1 hpl]
    show (t ≠ 0 ∧ t ≠ 3) ∧ _ ↔ _
    obtain ⟨a1, a2, a3⟩ := slots_lt _ (type_lt he.good) t ht
    obtain ⟨s1, s2, s3⟩ := parent_shape he (by omega)
    by_cases h6 : 6 ≤ e.type
    · exact ⟨fun _ => h6, fun _ => ⟨a2 h6, (s1 h6).1⟩⟩
    · have := a3 (by omega)
      subst this
      refine ⟨fun ⟨h, hp⟩ => ?_, fun h => absurd h h6⟩
      by_cases hs : e.switch = e.level
      · have := (s2 h6 hs).2; omega
      · exact absurd hp (s3 h6 hs).1

theorem child_slots : ∀ b, (b = 6 ∨ b = 7) → ∀ cid < 8, ∀ t < 6,
    look (Simplex.cidTypeToParenttype .tet) cid t ∈ slots b →
    ∃ i < 10, look parenttypeIlocToCid b i = cid ∧ t ∈ slots (look parenttypeIlocToType b i) := by
  have : ∀ b ∈ [6, 7], ∀ cid < 8, ∀ t < 6, look (Simplex.cidTypeToParenttype .tet) cid t ∈ slots b →
    ∃ i < 10, look parenttypeIlocToCid b i = cid ∧ t ∈ slots (look parenttypeIlocToType b i) := by decide +kernel
  intro b hb
  exact this b (by simpa using hb)

/-- Every tetrahedron of a cube inside of the root is part of an element of the tree. -/
theorem exists_elem {p : S} (hp : Al p) (hi : InP p) :
    ∃ e, Valid e ∧ e.cube = Simplex.Elem.cube p ∧ p.type ∈ slots e.type := by
  induction hn : p.level generalizing p with
  | zero =>
    refine ⟨root, Valid.root, (Standalone.root_unique hp.1 hn).symm, ?_⟩
    have h1 : ct p 0 = p.type := by rw [← ct_self p, hn]
    rw [InP, h1] at hi
    show p.type ∈ [1, 2]
    simpa using hi
  | succ n ih =>
    have hl : 0 < p.level := by omega
    have hl21 : p.level ≤ 21 := hp.1.1
    have hq := Simplex.aligned_parent (c := .tet) hp hl
    obtain ⟨e, e1, e2, e3⟩ := ih hq ((inP_parent hl).1 hi) (by rw [parent_level]; omega)
    have hel : e.level = p.level - 1 := congrArg (fun z : Standalone.Elem 3 => z.level) e2
    by_cases h6 : 6 ≤ e.type
    · have hcl := Simplex.cubeid_lt (c := .tet) p p.level
      obtain ⟨i, i1, i2, i3⟩ := child_slots e.type (e1.good.pyra h6).1 _ hcl p.type hp.2 e3
      have hnc : i < numChildren e := by rw [numChildren_eq, if_pos h6]; exact i1
      refine ⟨child e i, valid_child e1 (by omega) hnc, ?_, ?_⟩
      · rw [(child_cube e1.good (by omega) hnc).1, i2, e2]
        have := Standalone.child_parent (M := 21) h32 hp.1 (by show 0 < p.level; omega)
        rw [Standalone.childId_eq (by show 0 < p.level; omega)] at this
        rw [Simplex.parent_cube, Simplex.cubeid_eq]
        exact this
      · rw [(child_cube e1.good (by omega) hnc).2.1]; exact i3
    · have ht := (slots_lt _ (type_lt e1.good) _ e3).2.2 (by omega)
      have he : e.tet = Simplex.parent .tet p := Simplex.Elem.ext' e2 ht.symm
      have hci := Simplex.childId_lt (c := .tet) hp
      have hnc : Simplex.childId .tet p < numChildren e := by rw [numChildren_eq, if_neg h6]; exact hci
      have hce : (child e (Simplex.childId .tet p)).tet = p := by
        rw [child_tet h6, he]
        exact Simplex.child_parent (c := .tet) hp hl
      refine ⟨child e (Simplex.childId .tet p), valid_child e1 (by omega) hnc, ?_, ?_⟩
      · show Simplex.Elem.cube (child e (Simplex.childId .tet p)).tet = _
        rw [hce]
      · show p.type ∈ slots (child e (Simplex.childId .tet p)).tet.type
        rw [hce]
        have hpt : p.type < 6 := hp.2
        rw [slots, if_neg (by omega), if_neg (by omega)]
        exact List.mem_singleton.2 rfl

theorem mem_slots_self {t : Nat} (h : t < 6) : t ∈ slots t := by
  rw [slots, if_neg (by omega), if_neg (by omega)]
  exact List.mem_singleton.2 rfl

end T8.Pyramid
