/-
Lemmas about triangles and tetrahedra: successors, ancestors and nearest common ancestors.
-/
import Verif.Lemmas.SimplexIds

namespace T8.Simplex
open T8.RTree T8.Bits

variable {c : Cls}

/-! ### Successors -/

theorem bits {e : Elem c.dim} (he : Valid c e) (i : Fin c.dim) (k : Nat) (h : (e.x i).getLsbD k = true) :
    c.maxLevel - e.level ≤ k ∧ k < c.maxLevel :=
  (Standalone.valid_iff_bits.1 he.1).2 i k h

theorem getLsbD_child {e : Elem c.dim} (he : Valid c e) (hl : e.level < c.maxLevel) {I : Nat} (hI : I < c.numChildren)
    (i : Fin c.dim) (k : Nat) :
    ((child c e I).x i).getLsbD k =
      ((e.x i).getLsbD k || ((cidOf c e.type I).testBit i && decide (c.maxLevel - (e.level + 1) = k))) := by
  have h1 : (child c e I).x i = (Standalone.child c.maxLevel e.cube (cidOf c e.type I)).coords i := by
    rw [← child_cube he.aligned hl hI]; rfl
  rw [h1, Standalone.child_bit (h32 c) he.1 hl]
  rfl

/-- Setting or deleting one bit. -/
theorem put_bit (v : BitVec 32) (b : Bool) {n : Nat} (hn : n < 32) (k : Nat) :
    (if b = true then v ||| BitVec.twoPow 32 n else v &&& ~~~(BitVec.twoPow 32 n)).getLsbD k =
      if k = n then b else v.getLsbD k := by
  cases b
  · simp only [Bool.false_eq_true, if_false, BitVec.getLsbD_and, BitVec.getLsbD_not, BitVec.getLsbD_twoPow]
    by_cases hk : k = n
    · subst hk; simp [hn]
    · by_cases hk2 : k < 32
      · simp [hk, hk2, Ne.symm hk]
      · simp [hk, hk2, BitVec.getLsbD_of_ge v k (by omega)]
  · simp only [if_true, BitVec.getLsbD_or, BitVec.getLsbD_twoPow]
    by_cases hk : k = n
    · subst hk; simp [hn]
    · simp [hk, Ne.symm hk]

/-- `s` has the upper bits of `P` and the lower bits of `e`. -/
def Upper (e P s : Elem c.dim) : Prop :=
  s.level = P.level ∧ s.type = P.type ∧ ∀ i k, (s.x i).getLsbD k =
    if c.maxLevel - P.level ≤ k then (P.x i).getLsbD k else (e.x i).getLsbD k

theorem upper_child {e P : Elem c.dim} (hP : Valid c P) (hl : P.level < c.maxLevel) {J : Nat} (hJ : J < c.numChildren)
    {x : Fin c.dim → BitVec 32}
    (hx : ∀ i k, (x i).getLsbD k = if c.maxLevel - P.level ≤ k then (P.x i).getLsbD k else (e.x i).getLsbD k) :
    Upper e (child c P J) ⟨fun i => if look (parenttypeIlocToCid c) P.type J &&& (1 <<< i.val) ≠ 0 then
      x i ||| BitVec.twoPow 32 (c.maxLevel - (P.level + 1)) else x i &&& ~~~(BitVec.twoPow 32 (c.maxLevel - (P.level + 1))),
      P.level + 1, look (parenttypeIlocToType c) P.type J⟩ := by
  have hM := maxLevel_lt c
  refine ⟨rfl, (child_table c _ hP.aligned.2 J hJ).2.2.2.2.2.2.1, fun i k => ?_⟩
  have h3 : look (parenttypeIlocToCid c) P.type J = cidOf c P.type J := rfl
  simp only [Standalone.and_shift_ne_zero, h3]
  rw [put_bit _ _ (by omega), hx, getLsbD_child hP hl hJ]
  have hlev : (child c P J).level = P.level + 1 := rfl
  rw [hlev]
  by_cases hk : k = c.maxLevel - (P.level + 1)
  · have : (P.x i).getLsbD k = false := by
      by_contra h
      have := bits hP i k (by simpa using h)
      omega
    rw [if_pos hk, if_pos (by omega), this]
    simp [hk]
  · rw [if_neg hk]
    have : decide (c.maxLevel - (P.level + 1) = k) = false := by simpa using fun h => hk h.symm
    rw [this, Bool.and_false, Bool.or_false]
    by_cases h2 : c.maxLevel - P.level ≤ k
    · rw [if_pos h2, if_pos (by omega)]
    · rw [if_neg h2, if_neg (by omega)]

theorem succPred_spec {e : Elem c.dim} (he : Valid c e) : ∀ l ≤ e.level,
    pos (T := tree c) ((tree c).anc e l) + 1 < (2 ^ c.dim) ^ l →
    ∃ s S, succPred c e l e 1 = some s ∧ Valid c S ∧ S.level = l ∧
      pos (T := tree c) S = pos (T := tree c) ((tree c).anc e l) + 1 ∧ Upper e S s := by
  have hem : e.level ≤ c.maxLevel := he.1.1
  intro l
  induction l with
  | zero => intro _ h; simp at h
  | succ l ih =>
    intro hl hlt
    have hA : Valid c ((tree c).anc e l) := valid_anc (T := tree c) he _
    have hAl : ((tree c).anc e l).level = l := anc_level he (by omega)
    have hpos := pos_anc_succ he (show l < e.level by omega)
    have hI : childId c ((tree c).anc e (l + 1)) < c.numChildren := childId_lt (valid_anc (T := tree c) he _).aligned
    have hn : (1 : Int) < c.numChildren := by cases c <;> decide
    have hN := numChildren_eq c
    rw [succPred]
    simp only [Option.bind_eq_bind]
    rw [assertO_true hl, Option.bind_some, assertO_true ⟨by omega, by omega⟩, Option.bind_some,
      if_neg (by decide), computeType_eq he hl, childId_anc he hl, anc_type_step he (by omega)]
    by_cases hlast : childId c ((tree c).anc e (l + 1)) = c.numChildren - 1
    · have hloc : (((childId c ((tree c).anc e (l + 1)) : Int) + c.numChildren + 1) % c.numChildren).toNat = 0 := by
        have : (childId c ((tree c).anc e (l + 1)) : Int) + c.numChildren + 1 = c.numChildren * 2 := by omega
        rw [this, Int.mul_emod_right]; rfl
      have hmul : pos (T := tree c) ((tree c).anc e (l + 1)) + 1 =
          (pos (T := tree c) ((tree c).anc e l) + 1) * 2 ^ c.dim := by
        rw [hpos, Nat.add_mul, Nat.one_mul]; omega
      obtain ⟨s, S, h1, h2, h3, h4, h5, h6, h7⟩ := ih (by omega) (by
        rw [hmul, Nat.pow_succ] at hlt
        exact Nat.lt_of_mul_lt_mul_right hlt)
      have hsign : (if (1 : Int) < 0 then (-1 : Int) else if (1 : Int) > 0 then 1 else 0) = 1 := by decide
      rw [hloc, if_pos rfl, hsign, h1]
      simp only [Option.bind_some]
      refine ⟨_, child c S 0, rfl, valid_child h2 (by omega) (by omega), by show S.level + 1 = _; omega, ?_, ?_⟩
      · have := (regular c).pos_child (e := S) h2 (show S.level < c.maxLevel by omega) (i := 0) (by omega)
        rw [hmul, ← h4]
        exact this
      · have := upper_child (e := e) h2 (by omega) (J := 0) (by omega) h7
        rw [h3] at this
        rw [h6]
        exact this
    · have hloc : (((childId c ((tree c).anc e (l + 1)) : Int) + c.numChildren + 1) % c.numChildren).toNat =
          childId c ((tree c).anc e (l + 1)) + 1 := by
        have : (childId c ((tree c).anc e (l + 1)) : Int) + c.numChildren + 1 =
          (childId c ((tree c).anc e (l + 1)) + 1 : Int) + c.numChildren := by omega
        rw [this, Int.add_emod_right, Int.emod_eq_of_lt (by omega) (by omega)]
        omega
      rw [hloc, if_neg (by omega)]
      simp only [Option.bind_some]
      refine ⟨_, child c ((tree c).anc e l) (childId c ((tree c).anc e (l + 1)) + 1), rfl,
        valid_child hA (by omega) (by omega), by show ((tree c).anc e l).level + 1 = _; omega, ?_, ?_⟩
      · have := (regular c).pos_child (e := (tree c).anc e l) hA (show ((tree c).anc e l).level < c.maxLevel by omega)
          (i := childId c ((tree c).anc e (l + 1)) + 1) (by omega)
        rw [hpos, Nat.add_assoc]
        exact this
      · have := upper_child (e := e) hA (by omega) (J := childId c ((tree c).anc e (l + 1)) + 1) (by omega)
          (x := e.x) (fun i k => by
            rw [anc_bit he (by omega), hAl]
            by_cases hk : c.maxLevel - l ≤ k <;> simp [hk])
        rw [hAl] at this
        exact this

theorem upper_eq {e S s : Elem c.dim} (he : Valid c e) (hS : Valid c S) (hl : S.level = e.level) (h : Upper e S s) :
    s = S := by
  obtain ⟨h1, h2, h3⟩ := h
  refine Elem.ext' (Standalone.Elem.ext' (fun i => ?_) h1) h2
  apply BitVec.eq_of_getLsbD_eq
  intro k _
  show (s.x i).getLsbD k = (S.x i).getLsbD k
  rw [h3]
  split
  · rfl
  · rename_i hk
    rw [Bool.eq_iff_iff]
    constructor <;> intro hb
    · have := bits he i k hb; omega
    · have := bits hS i k hb; omega

theorem successor_spec (c : Cls) : (tree c).SuccessorSpec (fun e => successor c e e.level) := by
  refine (regular c).successorSpec fun e he hlt => ?_
  have he' : Valid c e := he
  obtain ⟨s, S, h1, h2, h3, h4, h5⟩ := succPred_spec he' e.level (le_refl _) (by rw [anc_self]; exact hlt)
  rw [anc_self] at h4
  have := upper_eq he' h2 h3 h5
  subst this
  exact ⟨s, h1, h2, h3, h4⟩

/-! ### Types of ancestors -/

theorem sub_toInt {x y : BitVec 32} (hx : x.toNat < 2 ^ 30) (hy : y.toNat < 2 ^ 30) :
    (x - y).toInt = (x.toNat : Int) - y.toNat := by
  rw [BitVec.toInt_sub, toInt_eq _ (by omega), toInt_eq _ (by omega)]
  apply Int.bmod_eq_of_le <;> omega

/-- The place of the anchor inside of a cube of level `l` and the type decide about the order of the axes of the
ancestor. -/
def Order (e : Elem c.dim) (l : Nat) (i j : Fin c.dim) : Prop :=
  (e.x j).toNat % size c l < (e.x i).toNat % size c l ∨
    ((e.x i).toNat % size c l = (e.x j).toNat % size c l ∧ rank c e.type i < rank c e.type j)

theorem mod_size {v : BitVec 32} {l : Nat} (hl : l < c.maxLevel) :
    v.toNat % size c l = v.toNat % size c (l + 1) + size c (l + 1) * (v.getLsbD (c.maxLevel - (l + 1))).toNat := by
  rw [size, size, show c.maxLevel - l = c.maxLevel - (l + 1) + 1 by omega, Nat.mod_pow_succ, ← BitVec.testBit_toNat,
    Nat.toNat_testBit]

/-- The types of the ancestors follow from cube ids; they have the order of the axes of `Order`. -/
theorem chain_rank {e : Elem c.dim} (he : Aligned c e) {t : Nat → Nat} (h0 : t e.level = e.type)
    (ht : ∀ k ≤ e.level, t k < c.numTypes) {l : Nat} (hl : l ≤ e.level)
    (hs : ∀ k, l ≤ k → k < e.level → look (cidTypeToParenttype c) (computeCubeid c e (k + 1)) (t (k + 1)) = t k)
    (i j : Fin c.dim) : rank c (t l) i < rank c (t l) j ↔ Order e l i j := by
  have hem : e.level ≤ c.maxLevel := he.1.1
  induction hk : e.level - l generalizing l with
  | zero =>
    have : l = e.level := by omega
    subst this
    rw [h0, Order, Nat.mod_eq_zero_of_dvd (x_dvd he i), Nat.mod_eq_zero_of_dvd (x_dvd he j)]
    simp
  | succ k ih =>
    have h1 : rank c (t (l + 1)) i < rank c (t (l + 1)) j ↔ Order e (l + 1) i j :=
      ih (by omega) (fun k h1 h2 => hs k (by omega) h2) (by omega)
    rw [← hs l (le_refl _) (by omega), (parenttype_rank c _ (cubeid_lt e _) _ (ht (l + 1) (by omega))).2 i j, h1,
      cubeid_testBit _ (by omega), cubeid_testBit _ (by omega), Order, Order, mod_size (show l < c.maxLevel by omega),
      mod_size (show l < c.maxLevel by omega)]
    have l1 := Nat.mod_lt (e.x i).toNat (size_pos c (l + 1))
    have l2 := Nat.mod_lt (e.x j).toNat (size_pos c (l + 1))
    cases (e.x i).getLsbD (c.maxLevel - (l + 1)) <;> cases (e.x j).getLsbD (c.maxLevel - (l + 1)) <;>
      simp <;> omega

theorem anc_rank {e : Elem c.dim} (he : Valid c e) {l : Nat} (hl : l ≤ e.level) (i j : Fin c.dim) :
    rank c ((tree c).anc e l).type i < rank c ((tree c).anc e l).type j ↔ Order e l i j :=
  chain_rank he.aligned (t := fun k => ((tree c).anc e k).type) (by simp only [anc_self])
    (fun k _ => (valid_anc (T := tree c) he k).2.1) hl (fun _ _ hk => anc_type_step he hk) i j

theorem ite3 {α : Type} {P Q : Prop} [Decidable P] [Decidable Q] {d : Int} {A B : α}
    (h : P ↔ (0 < d ∨ (d = 0 ∧ Q))) :
    (if d > 0 then A else if d < 0 then B else if Q then A else B) = if P then A else B := by
  by_cases h1 : 0 < d
  · rw [if_pos h1, if_pos (h.2 (Or.inl h1))]
  · rw [if_neg h1]
    by_cases h2 : d < 0
    · rw [if_pos h2, if_neg (by rw [h]; omega)]
    · rw [if_neg h2]
      have : d = 0 := by omega
      by_cases hq : Q
      · rw [if_pos hq, if_pos (h.2 (Or.inr ⟨this, hq⟩))]
      · rw [if_neg hq, if_neg (by rw [h]; rintro (h | h); exacts [h1 h, hq h.2])]

theorem rank_tri : ∀ t < 2, (rank .tri t 0 < rank .tri t 1 ↔ t = 0) := by decide +kernel

theorem rank_tet : ∀ t < 6, (rank .tet t 0 < rank .tet t 1 ↔ t = 0 ∨ t = 1 ∨ t = 5) ∧
    (rank .tet t 0 < rank .tet t 2 ↔ t = 0 ∨ t = 1 ∨ t = 2) ∧
    (rank .tet t 1 < rank .tet t 2 ↔ t = 1 ∨ t = 2 ∨ t = 3) := by decide +kernel

theorem choose_type : ∀ t < 6,
    (match (List.range 6).filter (fun i =>
      (if t = 1 ∨ t = 2 ∨ t = 3 then
        exclude (if t = 0 ∨ t = 1 ∨ t = 2 then
          exclude (if t = 0 ∨ t = 1 ∨ t = 5 then exclude (List.replicate 6 true) 2 3 4
            else exclude (List.replicate 6 true) 0 1 5) 3 4 5
          else exclude (if t = 0 ∨ t = 1 ∨ t = 5 then exclude (List.replicate 6 true) 2 3 4
            else exclude (List.replicate 6 true) 0 1 5) 0 1 2) 0 4 5
        else exclude (if t = 0 ∨ t = 1 ∨ t = 2 then
          exclude (if t = 0 ∨ t = 1 ∨ t = 5 then exclude (List.replicate 6 true) 2 3 4
            else exclude (List.replicate 6 true) 0 1 5) 3 4 5
          else exclude (if t = 0 ∨ t = 1 ∨ t = 5 then exclude (List.replicate 6 true) 2 3 4
            else exclude (List.replicate 6 true) 0 1 5) 0 1 2) 1 2 3).getD i false) with
      | [t] => some t
      | _ => none) = some t := by decide +kernel

theorem delta_toNat (e : Elem c.dim) {l : Nat} (i : Fin c.dim) :
    (e.x i &&& (len c l - 1)).toNat = (e.x i).toNat % size c l := by
  rw [BitVec.toNat_and, len, toNat_mask (lt_of_le_of_lt (Nat.sub_le _ _) (lt_trans (maxLevel_lt c) (by omega))),
    Nat.and_two_pow_sub_one_eq_mod]
  rfl

theorem delta_lt (e : Elem c.dim) {l : Nat} (i : Fin c.dim) : (e.x i).toNat % size c l < 2 ^ 30 :=
  lt_of_lt_of_le (Nat.mod_lt _ (size_pos c l)) (le_trans (Nat.pow_le_pow_right (by omega) (Nat.sub_le _ _)) (pow_max_lt c).le)

theorem ancestorType_of {e : Elem c.dim} (ht : e.type < c.numTypes) {l T : Nat} (hT : T < c.numTypes)
    (hR : ∀ i j, rank c T i < rank c T j ↔ Order e l i j) :
    ancestorType c (fun i => e.x i &&& (len c l - 1)) e.type = some T := by
  have hd : ∀ i j, ((e.x i &&& (len c l - 1)) - (e.x j &&& (len c l - 1))).toInt =
      (((e.x i).toNat % size c l : Nat) : Int) - ((e.x j).toNat % size c l : Nat) := fun i j => by
    rw [sub_toInt (by rw [delta_toNat]; exact delta_lt e i) (by rw [delta_toNat]; exact delta_lt e j), delta_toNat,
      delta_toNat]
  have hS : ∀ i j : Fin c.dim, rank c T i < rank c T j ↔
      (0 < ((e.x i &&& (len c l - 1)) - (e.x j &&& (len c l - 1))).toInt ∨
        (((e.x i &&& (len c l - 1)) - (e.x j &&& (len c l - 1))).toInt = 0 ∧ rank c e.type i < rank c e.type j)) := by
    intro i j
    rw [hR, Order, hd]
    omega
  clear hR hd
  cases c
  · have h1 := hS 0 1
    rw [rank_tri _ hT, rank_tri _ ht] at h1
    simp only [Cls.numTypes] at hT ht
    simp only [ancestorType, ancestorTypeTri, Option.some.injEq]
    split
    · omega
    · split <;> omega
  · have h1 := hS 0 1
    have h2 := hS 0 2
    have h3 := hS 1 2
    rw [(rank_tet _ hT).1, (rank_tet _ ht).1] at h1
    rw [(rank_tet _ hT).2.1, (rank_tet _ ht).2.1] at h2
    rw [(rank_tet _ hT).2.2, (rank_tet _ ht).2.2] at h3
    simp only [ancestorType, ancestorTypeTet]
    rw [ite3 h1, ite3 h2, ite3 h3]
    exact choose_type T hT

theorem ancestorType_eq {e : Elem c.dim} (he : Valid c e) {l : Nat} (hl : l ≤ e.level) :
    ancestorType c (fun i => e.x i &&& (len c l - 1)) e.type = some ((tree c).anc e l).type :=
  ancestorType_of he.2.1 (valid_anc (T := tree c) he _).2.1 (fun i j => anc_rank he hl i j)

theorem ancestor_eq {e : Elem c.dim} (he : Valid c e) {l : Nat} (hl : l ≤ e.level) :
    ancestor c e l = some ((tree c).anc e l) := by
  rw [ancestor]
  simp only [Option.bind_eq_bind]
  rw [ancestorType_eq he hl, Option.bind_some]
  congr 1
  refine Elem.ext' (Standalone.Elem.ext' (fun i => ?_) (anc_level he hl).symm) rfl
  apply BitVec.eq_of_toNat_eq
  show (e.x i &&& ~~~(len c l - 1)).toNat = (((tree c).anc e l).x i).toNat
  have hM := maxLevel_lt c
  rw [len, toNat_clear _ (by omega)]
  apply Nat.eq_of_testBit_eq
  intro k
  rw [BitVec.testBit_toNat, anc_bit he hl, ← BitVec.testBit_toNat, Nat.testBit_mul_two_pow, Nat.testBit_div_two_pow,
    Bool.and_comm]
  by_cases hk : c.maxLevel - l ≤ k
  · simp [hk]
  · simp [hk]

/-! ### The nearest common ancestor -/

theorem ncaLoop_spec {e f : Elem c.dim} (he : Valid c e) (hf : Valid c f) : ∀ r, r ≤ e.level → r ≤ f.level →
    ∃ m ≤ r, ncaLoop c e f r ((tree c).anc e r).type ((tree c).anc f r).type = some m ∧
      ((tree c).anc e m).type = ((tree c).anc f m).type ∧
      ∀ k, m < k → k ≤ r → ((tree c).anc e k).type ≠ ((tree c).anc f k).type := by
  intro r
  induction r with
  | zero =>
    intro _ _
    refine ⟨0, le_refl _, ?_, by rw [anc_zero he, anc_zero hf], fun k _ _ => by omega⟩
    rw [ncaLoop, anc_zero he, anc_zero hf, if_pos rfl]
  | succ r ih =>
    intro h1 h2
    rw [ncaLoop]
    by_cases h : ((tree c).anc e (r + 1)).type = ((tree c).anc f (r + 1)).type
    · exact ⟨r + 1, le_refl _, by rw [if_pos h], h, fun k _ _ => by omega⟩
    · obtain ⟨m, q1, q2, q3, q4⟩ := ih (by omega) (by omega)
      refine ⟨m, by omega, ?_, q3, fun k hk1 hk2 => ?_⟩
      · rw [if_neg h, computeTypeExt_eq he (by omega) h1, computeTypeExt_eq hf (by omega) h2, q2]
      · rcases Nat.lt_or_ge r k with hk | hk
        · rw [show k = r + 1 by omega]; exact h
        · exact q4 k hk1 hk

theorem nca_spec (c : Cls) : (tree c).NcaSpec (nca c) := by
  intro x y hx hy
  have hx' : Valid c x := hx
  have hy' : Valid c y := hy
  have lx : x.level ≤ c.maxLevel := hx'.1.1
  have ly : y.level ≤ c.maxLevel := hy'.1.1
  let w := (List.finRange c.dim).foldl (fun z i => z ||| (x.x i ^^^ y.x i)) 0
  have hw : ∀ k, w.getLsbD k = true ↔ ∃ i, ((x.x i) ^^^ (y.x i)).getLsbD k = true := by
    intro k
    rw [Standalone.foldl_or_bv]
    simp
  obtain ⟨ha1, ha2⟩ := Standalone.activeBits_spec w
  have hle : Standalone.activeBits w ≤ c.maxLevel := by
    by_contra hc
    have h1 := (hw _).1 (ha2 (by omega))
    obtain ⟨i, hi⟩ := h1
    rw [BitVec.getLsbD_xor] at hi
    cases hbx : (x.x i).getLsbD (Standalone.activeBits w - 1) with
    | true => have := bits hx' i _ hbx; omega
    | false =>
      rw [hbx] at hi
      have := bits hy' i _ (by simpa using hi)
      omega
  have hagree : ∀ i k, Standalone.activeBits w ≤ k → (x.x i).getLsbD k = (y.x i).getLsbD k := by
    intro i k hk
    by_contra hne
    have : w.getLsbD k = true := (hw k).2 ⟨i, by rw [BitVec.getLsbD_xor]; simpa using hne⟩
    have := ha1 k this
    omega
  obtain ⟨m, q1, q2, q3, q4⟩ := ncaLoop_spec hx' hy' (min (c.maxLevel - Standalone.activeBits w) (min x.level y.level))
    (by omega) (by omega)
  have hanc : (tree c).anc x m = (tree c).anc y m := by
    refine Elem.ext' (Standalone.Elem.ext' (fun i => ?_) ?_) q3
    · apply BitVec.eq_of_getLsbD_eq
      intro k hk
      show (((tree c).anc x m).x i).getLsbD k = (((tree c).anc y m).x i).getLsbD k
      rw [anc_bit hx' (by omega), anc_bit hy' (by omega)]
      by_cases hk2 : c.maxLevel - m ≤ k
      · rw [hagree i k (by omega)]
      · simp [hk2]
    · show ((tree c).anc x m).level = ((tree c).anc y m).level
      rw [anc_level hx' (by omega), anc_level hy' (by omega)]
  refine ⟨(tree c).anc x m, ?_, valid_anc (T := tree c) hx m, ?_⟩
  · rw [nca]
    simp only [Option.bind_eq_bind]
    rw [assertO_true hle]
    simp only [Option.bind_some]
    rw [computeType_eq hx' (by omega), computeType_eq hy' (by omega), q2, Option.bind_some, ancestor_eq hx' (by omega)]
  · refine isNca_anc (T := tree c) hx hy (by show m ≤ x.level; omega) (by show m ≤ y.level; omega) hanc ?_
    intro h1 h2 hc
    have h1' : m < x.level := h1
    have h2' : m < y.level := h2
    by_cases hm : m + 1 ≤ min (c.maxLevel - Standalone.activeBits w) (min x.level y.level)
    · exact q4 (m + 1) (by omega) hm (by rw [hc])
    · have hpos : 0 < Standalone.activeBits w := by omega
      obtain ⟨i, hi⟩ := (hw _).1 (ha2 hpos)
      have hbit := congrArg (fun e : Elem c.dim => (e.x i).getLsbD (Standalone.activeBits w - 1)) hc
      simp only [anc_bit hx' h1', anc_bit hy' h2'] at hbit
      have hdec : c.maxLevel - (m + 1) ≤ Standalone.activeBits w - 1 := by omega
      rw [BitVec.getLsbD_xor] at hi
      simp [hdec] at hbit
      simp [hbit] at hi

/-! ### The geometric test for ancestors -/

/-- The xor of two coordinates vanishes above a level iff they agree there. -/
theorem xor_shift_eq_zero (v w : BitVec 32) (hv : v.toNat < 2 ^ 30) (hw : w.toNat < 2 ^ 30) (k : Nat) :
    (v ^^^ w).sshiftRight k = 0 ↔ v.toNat / 2 ^ k = w.toNat / 2 ^ k := by
  have hx : (v ^^^ w).toNat < 2 ^ 30 := by rw [BitVec.toNat_xor]; exact Nat.xor_lt_two_pow hv hw
  rw [← BitVec.toNat_inj, toNat_shift _ (by omega), BitVec.toNat_xor, ← Nat.shiftRight_eq_div_pow,
    Nat.shiftRight_xor_distrib, ← Nat.shiftRight_eq_div_pow, ← Nat.shiftRight_eq_div_pow]
  exact Nat.xor_eq_zero_iff

theorem isInsideType_iff {a b : Elem c.dim} (ha : Valid c a) (hb : Valid c b)
    (hx : ∀ i, (a.x i).toNat + (b.x i).toNat % size c a.level = (b.x i).toNat) :
    isInsideType c a b = true ↔ ∀ i j, rank c a.type i < rank c a.type j → Order b a.level i j := by
  have hd : ∀ i, (b.x i - a.x i).toInt = ((b.x i).toNat % size c a.level : Nat) := fun i => by
    have h1 := pow_max_lt c
    have h2 := x_lt ha.aligned i
    have h3 := x_lt hb.aligned i
    rw [sub_toInt (by omega) (by omega)]
    have := hx i
    omega
  have hl : ∀ i, (b.x i).toNat % size c a.level < size c a.level := fun i => Nat.mod_lt _ (size_pos c _)
  have hlen : (len c a.level).toInt = size c a.level := by
    have h1 : size c a.level ≤ 2 ^ c.maxLevel := Nat.pow_le_pow_right (by omega) (Nat.sub_le _ _)
    have h2 := pow_max_lt c
    rw [toInt_eq _ (by rw [len_toNat]; omega), len_toNat]
  have ht1 := ha.2.1
  have ht2 := hb.2.1
  simp only [Order]
  clear hx ha hb
  obtain ⟨ax, al, at'⟩ := a
  obtain ⟨bx, bl, bt⟩ := b
  simp only at *
  generalize size c al = s at *
  cases c
  · simp only [isInsideType, isInsideTypeTri, hd, hlen]
    simp only [Cls.numTypes] at ht1 ht2
    have l0 := hl 0
    have l1 := hl 1
    simp only [Fin.forall_fin_two]
    generalize (bx 0).toNat % s = d0 at *
    generalize (bx 1).toNat % s = d1 at *
    interval_cases at' <;> interval_cases bt <;> simp [rank, axes, List.idxOf_cons] <;> omega
  · simp only [isInsideType, isInsideTypeTet, hd, hlen]
    simp only [Cls.numTypes] at ht1 ht2
    have l0 := hl 0
    have l1 := hl 1
    have l2 := hl 2
    simp only [Fin.forall_fin_succ, Fin.forall_fin_zero]
    simp only [show (Fin.succ 0 : Fin 3) = 1 from rfl, show (Fin.succ (Fin.succ 0) : Fin 3) = 2 from rfl]
    generalize (bx 0).toNat % s = d0 at *
    generalize (bx 1).toNat % s = d1 at *
    generalize (bx 2).toNat % s = d2 at *
    interval_cases at' <;> interval_cases bt <;> simp [rank, axes, List.idxOf_cons] <;> omega

theorem anc_toNat {e : Elem c.dim} (he : Valid c e) {l : Nat} (hl : l ≤ e.level) (i : Fin c.dim) :
    (((tree c).anc e l).x i).toNat = (e.x i).toNat / size c l * size c l := by
  apply Nat.eq_of_testBit_eq
  intro k
  rw [size, BitVec.testBit_toNat, anc_bit he hl, ← BitVec.testBit_toNat, Nat.testBit_mul_two_pow,
    Nat.testBit_div_two_pow, Bool.and_comm]
  by_cases hk : c.maxLevel - l ≤ k
  · simp [hk]
  · simp [hk]

theorem isAncestorGeo_spec (c : Cls) : (tree c).IsAncestorSpec (isAncestorGeo c) := by
  intro a b ha hb
  have ha' : Valid c a := ha
  have hb' : Valid c b := hb
  rw [RTree.desc_iff (T := tree c) ha hb, isAncestorGeo]
  show _ ↔ a.level ≤ b.level ∧ (tree c).anc b a.level = a
  split
  · rename_i h; simp; omega
  · rename_i hgt
    have hle : a.level ≤ b.level := by omega
    split
    · rename_i heq
      rw [isEqual_iff, heq, anc_self]
      exact ⟨fun h => ⟨le_refl _, h.symm⟩, fun h => h.2.symm⟩
    · have hp := pow_max_lt c
      have hdiv : ∀ i, (a.x i).toNat / size c a.level * size c a.level = (a.x i).toNat := fun i =>
        Nat.div_mul_cancel (x_dvd ha'.aligned i)
      have hcube : (List.finRange c.dim).all (fun i => (a.x i ^^^ b.x i).sshiftRight (c.maxLevel - a.level) == 0) = true ↔
          ∀ i, (a.x i).toNat = (((tree c).anc b a.level).x i).toNat := by
        simp only [List.all_eq_true, List.mem_finRange, true_implies, beq_iff_eq]
        refine forall_congr' fun i => ?_
        have h1 := x_lt ha'.aligned i
        have h2 := x_lt hb'.aligned i
        rw [xor_shift_eq_zero _ _ (by omega) (by omega), anc_toNat hb' hle, ← hdiv i]
        show (_ / size c a.level = _ / size c a.level) ↔ _
        rw [Nat.mul_div_cancel _ (size_pos c _)]
        exact ⟨fun h => by rw [h], fun h => Nat.eq_of_mul_eq_mul_right (size_pos c _) h⟩
      have hext : (tree c).anc b a.level = a ↔ (∀ i, (a.x i).toNat = (((tree c).anc b a.level).x i).toNat) ∧
          a.type = ((tree c).anc b a.level).type := by
        constructor
        · intro h; rw [h]; exact ⟨fun _ => rfl, rfl⟩
        · rintro ⟨h1, h2⟩
          exact (Elem.ext' (Standalone.Elem.ext' (fun i => BitVec.eq_of_toNat_eq (h1 i)) (anc_level hb' hle).symm) h2).symm
      rw [hext]
      split
      · rename_i hall
        rw [hcube] at hall
        rw [isInsideType_iff ha' hb' (fun i => by
          rw [hall i, anc_toNat hb' hle, Nat.mul_comm]; exact Nat.div_add_mod _ _)]
        have hA : Valid c ((tree c).anc b a.level) := valid_anc (T := tree c) hb _
        constructor
        · intro h
          refine ⟨hle, hall, type_ext c _ ha'.2.1 _ hA.2.1 fun i j hij => ?_⟩
          rw [anc_rank hb' hle]
          exact h i j hij
        · rintro ⟨_, _, h⟩ i j hij
          rw [← anc_rank hb' hle, ← h]
          exact hij
      · rename_i hall
        rw [hcube] at hall
        simp [hall]

/-! ### Siblings and parents -/

theorem isParent_iff (e f : Elem c.dim) (hf : 0 < f.level) : isParent c e f = true ↔ parent c f = e := by
  rw [isParent]
  simp only [Bool.and_eq_true, beq_iff_eq, List.all_eq_true, List.mem_finRange, true_implies]
  constructor
  · rintro ⟨⟨h1, h2⟩, h3⟩
    exact Elem.ext' (e := parent c f) (f := e)
      (Standalone.Elem.ext' (fun i => (h2 i).symm) (by show f.level - 1 = e.level; omega)) h3.symm
  · rintro rfl
    exact ⟨⟨by show f.level - 1 + 1 = f.level; omega, fun _ => rfl⟩, rfl⟩

theorem isSibling_iff {e f : Elem c.dim} (he : Valid c e) (hf : Valid c f) :
    isSibling c e f = true ↔ e.level = f.level ∧ (0 < e.level → parent c e = parent c f) := by
  rw [isSibling]
  split
  · rename_i h0
    simp only [Bool.and_eq_true, beq_iff_eq, List.all_eq_true, List.mem_finRange, true_implies]
    constructor
    · rintro ⟨h1, h2⟩
      exact ⟨by omega, fun h => by omega⟩
    · rintro ⟨h1, _⟩
      have e1 := root_unique he h0
      have e2 := root_unique hf (by omega)
      rw [e1, e2]
      exact ⟨rfl, fun _ => rfl⟩
  · rename_i h0
    simp only [Bool.and_eq_true, beq_iff_eq, List.all_eq_true, List.mem_finRange, true_implies]
    have hand : ∀ v w m : BitVec 32, (v ^^^ w) &&& m = 0 ↔ v &&& m = w &&& m := by
      intro v w m
      have h1 : (v ^^^ w) &&& m = (v &&& m) ^^^ (w &&& m) := by
        apply BitVec.eq_of_getLsbD_eq
        intro k _
        simp only [BitVec.getLsbD_and, BitVec.getLsbD_xor]
        cases v.getLsbD k <;> cases w.getLsbD k <;> cases m.getLsbD k <;> rfl
      rw [h1]
      exact BitVec.xor_eq_zero_iff
    constructor
    · rintro ⟨⟨h1, h2⟩, h3⟩
      refine ⟨h1, fun _ => Elem.ext' (Standalone.Elem.ext' (fun i => ?_) (by show e.level - 1 = f.level - 1; omega)) h3⟩
      show e.x i &&& ~~~(len c e.level) = f.x i &&& ~~~(len c f.level)
      rw [← h1]
      exact (hand _ _ _).1 (h2 i)
    · rintro ⟨h1, h2⟩
      have h3 := h2 (by omega)
      refine ⟨⟨h1, fun i => (hand _ _ _).2 ?_⟩, congrArg Elem.type h3⟩
      have h4 := congrArg (fun z : Elem c.dim => z.x i) h3
      have h5 : e.x i &&& ~~~(len c e.level) = f.x i &&& ~~~(len c f.level) := h4
      rw [← h1] at h5
      exact h5

end T8.Simplex
