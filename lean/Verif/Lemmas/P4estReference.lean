/-
The statements about p4est in `Spec/P4est.lean` can be satisfied: a reference implementation that is built from the
refinement tree.
-/
import Verif.Lemmas.CubeP4est

namespace T8.Cube
open T8.RTree
open T8.Standalone (Elem getLen Elem.ext')

open Classical in
/-- A (not computable) implementation of the functions of p4est. -/
noncomputable def Cls.reference (c : Cls) : P4est c.dim where
  isEqual x y := decide (x = y)
  compare x y := if c.tree.Lt x y then -1 else if x = y then 0 else 1
  parent := Standalone.parent c.rootLevel
  sibling e i := child c.rootLevel (Standalone.parent c.rootLevel e) i
  children e := (List.range (2 ^ c.dim)).map (child c.rootLevel e)
  childId e := if e.level = 0 then 0 else c.tree.childId e
  ancestorId e l := c.tree.childId (c.tree.anc e l)
  isFamily fam := decide (∃ p, c.tree.IsFamilyOf fam p)
  setMorton L id := ((c.tree.uniform c.tree.root L)[id.toNat]?).getD c.tree.root
  linearId e L := BitVec.ofNat 64 (lid (T := c.tree) (if L < e.level then c.tree.anc e L else e) L)
  firstDescendant e L := c.tree.firstDesc e (L - e.level)
  lastDescendant e L := c.tree.lastDesc e (L - e.level)
  cornerDescendant e k l :=
    ⟨fun i => e.coords i + (if k.testBit i.val then getLen c.rootLevel e.level - getLen c.rootLevel l else 0), l⟩
  successor e := ((c.tree.uniform c.tree.root e.level)[lid (T := c.tree) e e.level + 1]?).getD c.tree.root
  nca x y := c.tree.anc x (Nat.findGreatest (fun m => c.tree.anc x m = c.tree.anc y m) (min x.level y.level))
  faceNeighbor := Standalone.faceNeighbor c.rootLevel
  isInsideRoot e := decide (∀ i, 0 ≤ (e.coords i).toInt ∧ (e.coords i).toInt < 2 ^ c.rootLevel)
  faceCorners f k := (((List.range (2 ^ c.dim)).filter (fun k => CornerOnFace k f))[k]?).getD 0
  cornerFaces k j := (((List.range (2 * c.dim)).filter (fun f => CornerOnFace k f))[j]?).getD 0
  faceDual f := f ^^^ 1

theorem map_getD {l : List Nat} {n : Nat} (h : l.length = n) : (List.range n).map (fun k => (l[k]?).getD 0) = l := by
  subst h
  apply List.ext_getElem?
  intro i
  rw [List.getElem?_map]
  rcases Nat.lt_or_ge i l.length with hi | hi
  · rw [List.getElem?_range hi, List.getElem?_eq_getElem hi]
    simp [hi]
  · rw [List.getElem?_eq_none hi, List.getElem?_eq_none (by simpa using hi)]
    rfl

theorem filter_lengths (d : Nat) (hd : d = 2 ∨ d = 3) :
    (∀ f, f < 2 * d → ((List.range (2 ^ d)).filter (fun k => CornerOnFace k f)).length = 2 ^ (d - 1)) ∧
    (∀ k, k < 2 ^ d → ((List.range (2 * d)).filter (fun f => CornerOnFace k f)).length = d) := by
  rcases hd with rfl | rfl <;> decide +kernel

theorem Cls.reference_documented (c : Cls) : c.reference.Documented c where
  isEqual x y _ _ := by simp [Cls.reference]
  compare x y hx hy := by
    obtain ⟨t1, t2, t3⟩ := ltTotalOrder (T := c.tree)
    simp only [Cls.reference]
    by_cases h1 : c.tree.Lt x y
    · rw [if_pos h1]
      have n1 : x ≠ y := by rintro rfl; exact t1 x hx h1
      have n2 : ¬ c.tree.Lt y x := fun h => t1 x hx (t2 x y x hx hy hx h1 h)
      simp [h1, n1, n2]
    · rw [if_neg h1]
      by_cases h2 : x = y
      · subst h2
        simp [h1]
      · rw [if_neg h2]
        have h3 : c.tree.Lt y x := ((t3 x y hx hy).resolve_left h1).resolve_left h2
        simp [h1, h2, h3]
  parent e he hl := by
    have hv : Valid c (Standalone.parent c.rootLevel e) := c.tree.valid_parent e he hl
    refine ⟨hv, c.tree.level_parent e he hl, fun p hp i => ?_⟩
    have hd : c.tree.Desc (Standalone.parent c.rootLevel e) e := by
      have := Desc.child_self (T := c.tree) (a := c.tree.parent e) (i := c.tree.childId e)
        (by have := c.tree.level_parent e he hl; have := c.tree.level_le e he; omega) (c.tree.childId_lt e he hl)
      rwa [c.tree.child_parent e he hl] at this
    have h1 := c.desc_box hv hd i
    have h2 := hp i
    constructor
    · exact le_trans h1.1 h2.1
    · exact le_trans h2.2 h1.2
  childId e he hl := by
    have hid : c.reference.childId e = c.tree.childId e := by
      show (if e.level = 0 then 0 else c.tree.childId e) = _
      rw [if_neg (by omega)]
    rw [hid]
    refine ⟨c.tree.childId_lt e he hl, fun i => ?_⟩
    have hp : Valid c (Standalone.parent c.rootLevel e) := c.tree.valid_parent e he hl
    have hpl : (Standalone.parent c.rootLevel e).level < c.maxLevel := by
      have h3 := he.2
      show e.level - 1 < c.maxLevel
      omega
    have hc : child c.rootLevel (Standalone.parent c.rootLevel e) (c.tree.childId e) = e := c.tree.child_parent e he hl
    have h4 := c.child_toNat hp hpl (c.tree.childId e) i
    rw [hc] at h4
    have hs := Standalone.side_pos (M := c.rootLevel) e
    show _ = decide (((Standalone.parent c.rootLevel e).coords i).toNat < (e.coords i).toNat)
    generalize (c.tree.childId e).testBit i.val = b at *
    cases b
    · simp only [Bool.false_eq_true, if_false] at h4
      symm
      rw [decide_eq_false_iff_not]
      omega
    · rw [if_pos rfl] at h4
      symm
      rw [decide_eq_true_eq]
      omega
  childId_root := rfl
  ancestorId e l he h0 hl := by
    show c.tree.childId (c.tree.anc e l) = if Elem.level (d := c.dim) (c.tree.anc e l) = 0 then 0 else _
    rw [if_neg]
    have : Elem.level (d := c.dim) (c.tree.anc e l) = l := level_anc (T := c.tree) he hl
    omega
  sibling e i he hl hi := by
    have hv : Valid c (Standalone.parent c.rootLevel e) := c.tree.valid_parent e he hl
    have hpl : (Standalone.parent c.rootLevel e).level + 1 = e.level := c.tree.level_parent e he hl
    have hm : (Standalone.parent c.rootLevel e).level < c.maxLevel := by have := he.2; omega
    refine ⟨c.tree.valid_child _ i hv hm hi, hpl, c.tree.parent_child _ i hv hm hi, ?_⟩
    show (if (Standalone.parent c.rootLevel e).level + 1 = 0 then 0 else _) = i
    rw [if_neg (by omega)]
    exact c.tree.childId_child _ i hv hm hi
  children e he hl := by
    refine ⟨by simp [Cls.reference], fun i x hx => ?_⟩
    have hx' : ((List.range (2 ^ c.dim)).map (child c.rootLevel e))[i]? = some x := hx
    rw [List.getElem?_map] at hx'
    obtain ⟨j, hj, rfl⟩ := Option.map_eq_some_iff.1 hx'
    have hi : i < 2 ^ c.dim := by
      by_contra h
      rw [List.getElem?_eq_none (by simpa using h)] at hj
      cases hj
    rw [List.getElem?_range hi] at hj
    cases hj
    refine ⟨c.tree.valid_child e i he hl hi, Nat.succ_pos _, c.tree.parent_child e i he hl hi, ?_⟩
    show (if e.level + 1 = 0 then 0 else _) = i
    rw [if_neg (by omega)]
    exact c.tree.childId_child e i he hl hi
  isFamily fam _ _ := by simp [Cls.reference]
  setMorton L id hL hid := by
    have hlt : id < 2 ^ 63 := by
      have := c.count_lt hL
      rw [count_root] at this
      omega
    show some (((c.tree.uniform c.tree.root L)[(BitVec.ofNat 64 id).toNat]?).getD c.tree.root) = _
    rw [BitVec.toNat_ofNat, Nat.mod_eq_of_lt (by omega), List.getElem?_eq_getElem hid]
    rfl
  linearId := by
    apply linearIdSpec_of
    intro e L he hL
    show (BitVec.ofNat 64 _).toNat = _
    rw [BitVec.toNat_ofNat]
    apply Nat.mod_eq_of_lt
    have key : ∀ x, c.tree.Valid x → c.tree.level x ≤ L → lid (T := c.tree) x L < 2 ^ 64 := by
      intro x hx hl
      have h1 := lid_lt hx hl hL
      have h2 := count_pos hx hl hL
      have h3 := c.count_lt hL
      omega
    split
    · rename_i hlt
      exact key _ (valid_anc (T := c.tree) he L) (le_of_eq (level_anc (T := c.tree) he (le_of_lt hlt)))
    · rename_i hlt
      exact key _ he (Nat.le_of_not_lt hlt)
  descendants := descendantSpec_of fun e L _ _ _ => ⟨rfl, rfl⟩
  cornerDescendant e k l he _ hl hm := by
    have hM := c.max_le
    have hle : 2 ^ (c.rootLevel - l) ≤ 2 ^ (c.rootLevel - e.level) := Nat.pow_le_pow_right (by omega) (by omega)
    have hco : ∀ i : Fin c.dim, ((c.reference.cornerDescendant e k l).coords i).toNat =
        (e.coords i).toNat + (if k.testBit i.val then 2 ^ (c.rootLevel - e.level) - 2 ^ (c.rootLevel - l) else 0) := by
      intro i
      have h32 := c.small' i.pos
      have h1 := Standalone.coord_add_side_le he.1 i
      have h2 := Standalone.two_pow_lt_32 h32
      have h3 : Standalone.side c.rootLevel e = 2 ^ (c.rootLevel - e.level) := rfl
      rw [h3] at h1
      show (e.coords i + (if k.testBit i.val then getLen c.rootLevel e.level - getLen c.rootLevel l else 0)).toNat = _
      rw [BitVec.toNat_add]
      split
      · rw [Standalone.len_sub_toNat h32 hl]
        generalize 2 ^ (c.rootLevel - e.level) = s at *
        generalize 2 ^ (c.rootLevel - l) = t at *
        generalize 2 ^ c.rootLevel = R at *
        exact Nat.mod_eq_of_lt (by omega)
      · exact Nat.mod_eq_of_lt (e.coords i).isLt
    have hx := Standalone.desc_of_extreme (x := c.reference.cornerDescendant e k l) c.small' he.1 hl (by omega) rfl (fun i => by
      rw [hco i]
      split
      · right; rfl
      · left; rfl)
    refine ⟨⟨hx.1, hm⟩, rfl, fun i => ?_⟩
    rw [hco i]
    have e1 : ((2 : Int) ^ (c.rootLevel - e.level)) = ((2 ^ (c.rootLevel - e.level) : Nat) : Int) := by norm_num
    have e2 : ((2 : Int) ^ (c.rootLevel - l)) = ((2 ^ (c.rootLevel - l) : Nat) : Int) := by norm_num
    rw [e1, e2]
    split <;> omega
  successor e s i he hi hs := by
    have h1 := lid_of_getElem (T := c.tree) he hi
    subst h1
    show some (((c.tree.uniform c.tree.root e.level)[lid (T := c.tree) e e.level + 1]?).getD c.tree.root) = _
    have hs' : (c.tree.uniform c.tree.root e.level)[lid (T := c.tree) e e.level + 1]? = some s := hs
    rw [hs']
    rfl
  nca x y hx hy := by
    refine ⟨_, rfl, valid_anc (T := c.tree) hx _, ?_⟩
    have hle := Nat.findGreatest_le (P := fun m => c.tree.anc x m = c.tree.anc y m) (min x.level y.level)
    have h0 : c.tree.anc x 0 = c.tree.anc y 0 := by rw [anc_zero (T := c.tree) hx, anc_zero (T := c.tree) hy]
    refine isNca_anc (T := c.tree) hx hy ?_ ?_ ?_ ?_
    · exact le_trans hle (min_le_left _ _)
    · exact le_trans hle (min_le_right _ _)
    · exact Nat.findGreatest_spec (P := fun m => c.tree.anc x m = c.tree.anc y m) (Nat.zero_le _) h0
    · intro a b
      exact Nat.findGreatest_is_greatest (P := fun m => c.tree.anc x m = c.tree.anc y m) (Nat.lt_succ_self _)
        (le_min a b)
  faceNeighbor e f he hf := by
    refine ⟨rfl, fun i => ?_⟩
    have hM : c.rootLevel < 32 := c.small' i.pos
    have h3 := Standalone.coord_add_side_le he.1 i
    have h4 : 2 ^ c.rootLevel ≤ 2 ^ 30 := Nat.pow_le_pow_right (by omega) c.root_small
    have h5 := Standalone.getLen_toNat hM e.level
    have h6 : Standalone.side c.rootLevel e = 2 ^ (c.rootLevel - e.level) := rfl
    rw [h6] at h3
    rw [show ((2 : Int) ^ (c.rootLevel - e.level)) = ((2 ^ (c.rootLevel - e.level) : Nat) : Int) by norm_num]
    show (if i.val = f / 2 then (if f % 2 = 1 then e.coords i + getLen c.rootLevel e.level
      else e.coords i - getLen c.rootLevel e.level) else e.coords i).toInt = _
    generalize 2 ^ (c.rootLevel - e.level) = s at *
    generalize 2 ^ c.rootLevel = R at *
    generalize getLen c.rootLevel e.level = g at *
    generalize e.coords i = x at *
    split
    · split
      · rw [BitVec.toInt_eq_toNat_cond, BitVec.toNat_add, h5, Nat.mod_eq_of_lt (by omega), if_pos (by omega)]
        omega
      · rw [BitVec.toInt_eq_toNat_cond, BitVec.toNat_sub, h5]
        split <;> omega
    · rw [BitVec.toInt_eq_toNat_cond, if_pos (by omega)]
      omega
  isInsideRoot e := by simp [Cls.reference]
  faceCorners f hf := map_getD ((filter_lengths c.dim c.dim_cases).1 f hf)
  cornerFaces k hk := map_getD ((filter_lengths c.dim c.dim_cases).2 k hk)
  faceDual f hf := ⟨Standalone.xor_one_div f, Standalone.xor_one_mod f⟩

end T8.Cube
