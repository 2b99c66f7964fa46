/-
Lemmas about triangles and tetrahedra: ancestors, linear ids, successors, descendants, nearest common ancestors.
-/
import Verif.Lemmas.Simplex
import Verif.Lemmas.StandaloneIds
import Verif.Lemmas.DefaultCommon

namespace T8.Simplex
open T8.RTree T8.Bits

variable {c : Cls}

/-! ### Ancestors -/

theorem anc_cube {e : Elem c.dim} (he : Valid c e) {l : Nat} (hl : l ≤ e.level) :
    ((tree c).anc e l).cube = Standalone.ancestor c.maxLevel e.cube l := by
  induction hk : e.level - l generalizing l with
  | zero =>
    have : l = e.level := by omega
    subst this
    rw [anc_of_level_le (T := tree c) (le_refl _), Standalone.ancestor, if_pos (show e.cube.level = e.level from rfl)]
  | succ k ih =>
    have h1 := ih (l := l + 1) (by omega) (by omega)
    have h2 : parent c ((tree c).anc e (l + 1)) = (tree c).anc e l := parent_anc (T := tree c) (e := e) (by show l < e.level; omega)
    rw [← h2, parent_cube, h1, Standalone.parent_ancestor (h32 c) he.1 (by show l < e.level; omega)]

theorem anc_bit {e : Elem c.dim} (he : Valid c e) {l : Nat} (hl : l ≤ e.level) (i : Fin c.dim) (k : Nat) :
    (((tree c).anc e l).x i).getLsbD k = ((e.x i).getLsbD k && decide (c.maxLevel - l ≤ k)) := by
  have h1 := congrArg (fun z : Standalone.Elem c.dim => (z.coords i).getLsbD k) (anc_cube he hl)
  simp only [Standalone.ancestor_bit he.1 (show l ≤ e.cube.level from hl) (h32 c)] at h1
  exact h1

theorem anc_level {e : Elem c.dim} (he : Valid c e) {l : Nat} (hl : l ≤ e.level) : ((tree c).anc e l).level = l :=
  level_anc (T := tree c) he hl

theorem cid_ext {a b : Nat} (ha : a < 2 ^ c.dim) (hb : b < 2 ^ c.dim) (h : ∀ i : Fin c.dim, a.testBit i = b.testBit i) :
    a = b := by
  apply Nat.eq_of_testBit_eq
  intro k
  by_cases hk : k < c.dim
  · exact h ⟨k, hk⟩
  · rw [Nat.testBit_lt_two_pow (lt_of_lt_of_le ha (Nat.pow_le_pow_right (by omega) (by omega))),
      Nat.testBit_lt_two_pow (lt_of_lt_of_le hb (Nat.pow_le_pow_right (by omega) (by omega)))]

/-- The cube ids of ancestors can be read off the element. -/
theorem cubeid_anc {e : Elem c.dim} (he : Valid c e) {l k : Nat} (hl : l ≤ e.level) (hk : k ≤ l) :
    computeCubeid c ((tree c).anc e l) k = computeCubeid c e k := by
  rcases Nat.eq_zero_or_pos k with rfl | h0
  · rfl
  · refine cid_ext (cubeid_lt _ _) (cubeid_lt _ _) fun i => ?_
    rw [cubeid_testBit _ (by omega), cubeid_testBit _ (by omega), anc_bit he hl]
    have : c.maxLevel - l ≤ c.maxLevel - k := by omega
    simp [this]

theorem anc_type_step {e : Elem c.dim} (he : Valid c e) {l : Nat} (hl : l < e.level) :
    look (cidTypeToParenttype c) (computeCubeid c e (l + 1)) ((tree c).anc e (l + 1)).type =
      ((tree c).anc e l).type := by
  have h2 : parent c ((tree c).anc e (l + 1)) = (tree c).anc e l := parent_anc (T := tree c) (e := e) hl
  rw [← h2, parent_type, anc_level he (by omega), cubeid_anc he (by omega) (le_refl _)]

theorem typeLoop_eq {e : Elem c.dim} (he : Valid c e) {l i : Nat} (hli : l ≤ i) (hi : i ≤ e.level) :
    typeLoop c e l i ((tree c).anc e i).type = ((tree c).anc e l).type := by
  induction i with
  | zero => rw [show l = 0 by omega]; rfl
  | succ i ih =>
    rw [typeLoop]
    split
    · rw [anc_type_step he (by omega)]
      exact ih (by omega) (by omega)
    · rw [show l = i + 1 by omega]

theorem anc_zero {e : Elem c.dim} (he : Valid c e) : (tree c).anc e 0 = root c :=
  root_unique (valid_anc (T := tree c) he 0) (anc_level he (Nat.zero_le _))

theorem anc_self (e : Elem c.dim) : (tree c).anc e e.level = e := anc_of_level_le (T := tree c) (le_refl _)

theorem computeTypeExt_eq {e : Elem c.dim} (he : Valid c e) {l k : Nat} (hlk : l ≤ k) (hk : k ≤ e.level) :
    computeTypeExt c e l ((tree c).anc e k).type k = ((tree c).anc e l).type := by
  rw [computeTypeExt]
  split
  · rename_i h; rw [h]
  · split
    · rename_i h; rw [h, anc_zero he]; rfl
    · exact typeLoop_eq he hlk hk

theorem computeType_eq {e : Elem c.dim} (he : Valid c e) {l : Nat} (hl : l ≤ e.level) :
    computeType c e l = ((tree c).anc e l).type := by
  have := computeTypeExt_eq he hl (le_refl _)
  rw [anc_self] at this
  exact this

theorem childId_anc {e : Elem c.dim} (he : Valid c e) {l : Nat} (hl : l ≤ e.level) :
    look (typeCidToIloc c) ((tree c).anc e l).type (computeCubeid c e l) = childId c ((tree c).anc e l) := by
  rw [childId, anc_level he hl, cubeid_anc he hl (le_refl _)]

theorem ancestorId_eq {e : Elem c.dim} (he : Valid c e) {l : Nat} (hl : l ≤ e.level) :
    ancestorId c e l = childId c ((tree c).anc e l) := by
  rw [ancestorId, computeType_eq he hl, childId_anc he hl]

/-! ### Linear ids -/

theorem dim_max (c : Cls) : c.dim * c.maxLevel < 64 := by cases c <;> decide

theorem pos_anc_succ {e : Elem c.dim} (he : Valid c e) {l : Nat} (hl : l < e.level) :
    pos (T := tree c) ((tree c).anc e (l + 1)) =
      pos (T := tree c) ((tree c).anc e l) * 2 ^ c.dim + childId c ((tree c).anc e (l + 1)) := by
  have h1 := (regular c).pos_parent (e := (tree c).anc e (l + 1)) (valid_anc (T := tree c) he _)
    (by show 0 < ((tree c).anc e (l + 1)).level; rw [anc_level he (by omega)]; omega)
  rw [parent_anc (T := tree c) (e := e) hl] at h1
  exact h1

/-- Putting digits in front. -/
theorem or_shift {id v : BitVec 64} {n : Nat} (h1 : id.toNat < 2 ^ n) (h2 : v.toNat * 2 ^ n < 2 ^ 64) :
    (id ||| (v <<< n)).toNat = id.toNat + v.toNat * 2 ^ n := by
  rw [BitVec.toNat_or, BitVec.toNat_shiftLeft, Nat.shiftLeft_eq, Nat.mod_eq_of_lt h2, Nat.or_comm,
    ← Nat.shiftLeft_eq, ← Nat.shiftLeft_add_eq_or_of_lt h1, Nat.add_comm]

theorem linearIdLoop_eq {e : Elem c.dim} (he : Valid c e) : ∀ (i exp : Nat) (id : BitVec 64), i ≤ e.level →
    exp + c.dim * i < 64 → id.toNat < 2 ^ exp →
    (linearIdLoop c e i exp ((tree c).anc e i).type id).toNat =
      id.toNat + pos (T := tree c) ((tree c).anc e i) * 2 ^ exp := by
  intro i
  induction i with
  | zero =>
    intro exp id _ _ _
    have : pos (T := tree c) ((tree c).anc e 0) = 0 := by rw [anc_zero he]; exact pos_root
    rw [linearIdLoop, this]; omega
  | succ i ih =>
    intro exp id hi hexp hid
    have hcl : childId c ((tree c).anc e (i + 1)) < 2 ^ c.dim := by
      rw [← numChildren_eq]
      exact childId_lt (valid_anc (T := tree c) he _).aligned
    have hx : 2 ^ (exp + c.dim) ≤ 2 ^ 63 := Nat.pow_le_pow_right (by omega) (by rw [Nat.mul_add] at hexp; omega)
    have hx2 : 2 ^ 63 < 2 ^ 64 := by decide
    have hd : 2 ^ c.dim < 2 ^ 64 := Nat.pow_lt_pow_right (by omega) (by cases c <;> decide)
    have hpe : (childId c ((tree c).anc e (i + 1)) + 1) * 2 ^ exp ≤ 2 ^ (exp + c.dim) := by
      rw [Nat.pow_add, Nat.mul_comm (2 ^ exp)]
      exact Nat.mul_le_mul_right _ hcl
    rw [Nat.add_mul, Nat.one_mul] at hpe
    have hv : (BitVec.ofNat 64 (childId c ((tree c).anc e (i + 1)))).toNat = childId c ((tree c).anc e (i + 1)) := by
      rw [BitVec.toNat_ofNat]; exact Nat.mod_eq_of_lt (lt_trans hcl hd)
    have ho := or_shift (id := id) (v := BitVec.ofNat 64 (childId c ((tree c).anc e (i + 1)))) hid (by rw [hv]; omega)
    rw [hv] at ho
    rw [linearIdLoop]
    rw [childId_anc he hi, anc_type_step he (by omega),
      ih (exp + c.dim) _ (by omega) (by rw [Nat.mul_add] at hexp; omega) (by rw [ho]; omega), ho, pos_anc_succ he (by omega),
      Nat.pow_add, Nat.add_mul, Nat.mul_assoc, Nat.mul_comm (2 ^ c.dim) (2 ^ exp)]
    omega

theorem pow_dim (n : Nat) : (2 ^ c.dim) ^ n = 2 ^ (c.dim * n) := by rw [← Nat.pow_mul]

theorem linearId_le {e : Elem c.dim} (he : Valid c e) {L : Nat} (hL : L ≤ e.level) :
    (linearId c e L).toNat = pos (T := tree c) ((tree c).anc e L) := by
  have h0 : e.level ≤ c.maxLevel := he.1.1
  have h1 : c.dim * L ≤ c.dim * c.maxLevel := Nat.mul_le_mul_left _ (by omega)
  have h2 := dim_max c
  rw [linearId, if_neg (by omega), computeType_eq he hL, linearIdLoop_eq he L 0 0 hL (by omega) (by decide)]
  simp

theorem linearId_gt {e : Elem c.dim} (he : Valid c e) {L : Nat} (hl : e.level < L) (hL : L ≤ c.maxLevel) :
    (linearId c e L).toNat = pos (T := tree c) e * (2 ^ c.dim) ^ (L - e.level) := by
  have h1 : c.dim * L ≤ c.dim * c.maxLevel := Nat.mul_le_mul_left _ (by omega)
  have h2 := dim_max c
  have h3 : (L - e.level) * c.dim + c.dim * e.level = c.dim * L := by
    rw [Nat.mul_comm, ← Nat.mul_add]; congr 1; omega
  have h4 := linearIdLoop_eq he e.level ((L - e.level) * c.dim) 0 (le_refl _) (by omega) (Nat.two_pow_pos _)
  rw [anc_self] at h4
  rw [linearId, if_pos hl, h4, pow_dim, Nat.mul_comm c.dim]
  simp

theorem linearId_self {e : Elem c.dim} (he : Valid c e) : (linearId c e e.level).toNat = pos (T := tree c) e := by
  rw [linearId_le he (le_refl _), anc_self]

theorem linearId_spec (c : Cls) : (tree c).LinearIdSpec (fun e L => (linearId c e L).toNat) := by
  refine (regular c).linearIdSpec (fun e L he hl => ?_) (fun e L he hl hL => linearId_gt he hl hL)
  rw [linearId_le he hl]
  exact (regular c).pos_anc he hl

/-! ### Elements from linear ids -/

/-- The coordinates and the type of a child, in the form of the loops. -/
theorem child_or {e : Elem c.dim} (he : Valid c e) (hl : e.level < c.maxLevel) {I : Nat} (hI : I < c.numChildren) :
    (fun k => e.x k ||| (if look (parenttypeIlocToCid c) e.type I &&& (1 <<< k.val) ≠ 0 then
      BitVec.twoPow 32 (c.maxLevel - (e.level + 1)) else 0)) = (child c e I).x ∧
    look (parenttypeIlocToType c) e.type I = (child c e I).type := by
  refine ⟨funext fun k => ?_, (child_table c _ he.aligned.2 I hI).2.2.2.2.2.2.1⟩
  have h1 : (child c e I).x k = (Standalone.child c.maxLevel e.cube (cidOf c e.type I)).coords k := by
    rw [← child_cube he.aligned hl hI]; rfl
  rw [h1]
  apply BitVec.eq_of_getLsbD_eq
  intro j hj
  rw [Standalone.child_bit (h32 c) he.1 hl, BitVec.getLsbD_or]
  have h3 : look (parenttypeIlocToCid c) e.type I = cidOf c e.type I := rfl
  have h2 := maxLevel_lt c
  have h4 : e.cube.coords k = e.x k := rfl
  have h5 : e.cube.level = e.level := rfl
  rw [h3, h4, h5]
  congr 1
  simp only [Standalone.and_shift_ne_zero]
  split
  · rename_i hb
    rw [hb, BitVec.getLsbD_twoPow]
    have : c.maxLevel - (e.level + 1) < 32 := by omega
    simp [this]
  · rename_i hb
    rw [Bool.not_eq_true] at hb
    rw [hb]; simp

theorem and_mask (v : BitVec 64) : (v &&& BitVec.ofNat 64 (c.numChildren - 1)).toNat = v.toNat % 2 ^ c.dim := by
  rw [BitVec.toNat_and, numChildren_eq, BitVec.toNat_ofNat, Nat.mod_eq_of_lt (by cases c <;> decide),
    Nat.and_two_pow_sub_one_eq_mod]

theorem initLoop_spec {id : BitVec 64} {L : Nat} (hL : L ≤ c.maxLevel) (hid : id.toNat < 2 ^ (c.dim * L)) :
    ∀ i ≤ L, ∃ a : Elem c.dim, initLoop c id L i = (a.x, a.type) ∧ Valid c a ∧ a.level = i ∧
      pos (T := tree c) a = id.toNat / 2 ^ (c.dim * (L - i)) := by
  intro i
  induction i with
  | zero =>
    intro _
    refine ⟨root c, rfl, valid_root, rfl, ?_⟩
    rw [Nat.sub_zero, Nat.div_eq_of_lt hid]
    exact pos_root
  | succ i ih =>
    intro hi
    obtain ⟨a, h1, h2, h3, h4⟩ := ih (by omega)
    have hal : a.level < c.maxLevel := by omega
    have hloc : ((id >>> (c.dim * (L - (i + 1)))) &&& BitVec.ofNat 64 (c.numChildren - 1)).toNat =
        id.toNat / 2 ^ (c.dim * (L - (i + 1))) % 2 ^ c.dim := by
      rw [and_mask, BitVec.toNat_ushiftRight, Nat.shiftRight_eq_div_pow]
    have hlt : id.toNat / 2 ^ (c.dim * (L - (i + 1))) % 2 ^ c.dim < c.numChildren := by
      rw [numChildren_eq]; exact Nat.mod_lt _ (Nat.two_pow_pos _)
    refine ⟨child c a (id.toNat / 2 ^ (c.dim * (L - (i + 1))) % 2 ^ c.dim), ?_, valid_child h2 hal hlt, ?_, ?_⟩
    · rw [initLoop, h1]
      simp only [hloc]
      obtain ⟨q1, q2⟩ := child_or h2 hal hlt
      rw [h3] at q1
      rw [← q1, ← q2]
    · show a.level + 1 = i + 1
      rw [h3]
    · have h5 := (regular c).pos_child (e := a) h2 hal (by rw [← numChildren_eq]; exact hlt)
      rw [h5, h4]
      have h6 : 2 ^ (c.dim * (L - i)) = 2 ^ (c.dim * (L - (i + 1))) * 2 ^ c.dim := by
        rw [← Nat.pow_add, ← Nat.mul_succ]; congr 2; omega
      rw [h6, ← Nat.div_div_eq_div_mul, Nat.mul_comm]
      exact Nat.div_add_mod _ _

theorem one_shift {n : Nat} (hn : n < 64) : ((1 : BitVec 64) <<< n).toNat = 2 ^ n := by
  rw [BitVec.toNat_shiftLeft, show (1 : BitVec 64).toNat = 1 from rfl, Nat.shiftLeft_eq, Nat.one_mul,
    Nat.mod_eq_of_lt (Nat.pow_lt_pow_right (by omega) hn)]

theorem dim_mul_lt {L : Nat} (hL : L ≤ c.maxLevel) : c.dim * L < 64 :=
  lt_of_le_of_lt (Nat.mul_le_mul_left _ hL) (dim_max c)

theorem initLinearId_spec {id : BitVec 64} {L : Nat} (hL : L ≤ c.maxLevel) (hid : id.toNat < 2 ^ (c.dim * L)) :
    ∃ a : Elem c.dim, initLinearId c L id = some a ∧ Valid c a ∧ a.level = L ∧ pos (T := tree c) a = id.toNat := by
  obtain ⟨a, h1, h2, h3, h4⟩ := initLoop_spec hL hid L (le_refl _)
  refine ⟨a, ?_, h2, h3, by simpa using h4⟩
  have hle : id ≤ (1 : BitVec 64) <<< (c.dim * L) := by
    rw [BitVec.le_def, one_shift (dim_mul_lt hL)]; exact hid.le
  rw [initLinearId, assertO_true hle, h1]
  show some _ = some a
  rw [← h3]

theorem ofNat_toNat {n : Nat} {L : Nat} (hL : L ≤ c.maxLevel) (h : n < 2 ^ (c.dim * L)) :
    (BitVec.ofNat 64 n).toNat = n := by
  rw [BitVec.toNat_ofNat]
  exact Nat.mod_eq_of_lt (lt_trans h (Nat.pow_lt_pow_right (by omega) (dim_mul_lt hL)))

theorem setLinearId_eq {id : BitVec 64} {L : Nat} (hL : L ≤ c.maxLevel) (hid : id.toNat < 2 ^ (c.dim * L)) :
    setLinearId c L id = initLinearId c L id := by
  have hlt : id < (1 : BitVec 64) <<< (c.dim * L) := by rw [BitVec.lt_def, one_shift (dim_mul_lt hL)]; exact hid
  rw [setLinearId, assertO_true hL, assertO_true hlt]
  rfl

theorem setLinearId_spec (c : Cls) : (tree c).SetLinearIdSpec (fun L id => setLinearId c L (BitVec.ofNat 64 id)) := by
  refine (regular c).setLinearIdSpec fun L id hL hid => ?_
  rw [pow_dim] at hid
  have h1 := ofNat_toNat hL hid
  obtain ⟨a, h2, h3, h4, h5⟩ := initLinearId_spec (id := BitVec.ofNat 64 id) hL (by rw [h1]; exact hid)
  exact ⟨a, by rw [setLinearId_eq hL (by rw [h1]; exact hid)]; exact h2, h3, h4, by rw [h5, h1]⟩

/-! ### Descendants -/

theorem pos_lt' {e : Elem c.dim} (he : Valid c e) : pos (T := tree c) e < 2 ^ (c.dim * e.level) := by
  rw [← pow_dim]; exact (regular c).pos_lt he

theorem pos_mul_lt {e : Elem c.dim} (he : Valid c e) {L : Nat} (hl : e.level ≤ L) :
    (pos (T := tree c) e + 1) * 2 ^ (c.dim * (L - e.level)) ≤ 2 ^ (c.dim * L) := by
  have h1 : 2 ^ (c.dim * L) = 2 ^ (c.dim * e.level) * 2 ^ (c.dim * (L - e.level)) := by
    rw [← Nat.pow_add, ← Nat.mul_add]; congr 2; omega
  rw [h1]
  exact Nat.mul_le_mul_right _ (pos_lt' he)

theorem linearId_ge {e : Elem c.dim} (he : Valid c e) {L : Nat} (hl : e.level ≤ L) (hL : L ≤ c.maxLevel) :
    (linearId c e L).toNat = pos (T := tree c) e * 2 ^ (c.dim * (L - e.level)) := by
  rcases Nat.lt_or_ge e.level L with h | h
  · rw [linearId_gt he h hL, pow_dim]
  · have : L = e.level := by omega
    subst this
    rw [linearId_self he]; simp

theorem firstDescendant_spec {e : Elem c.dim} (he : Valid c e) {L : Nat} (hl : e.level ≤ L) (hL : L ≤ c.maxLevel) :
    ∃ a, firstDescendant c e L = some a ∧ Valid c a ∧ a.level = L ∧
      pos (T := tree c) a = pos (T := tree c) e * 2 ^ (c.dim * (L - e.level)) := by
  have h1 := linearId_ge he hl hL
  have h2 := pos_mul_lt he hl
  have h3 := Nat.two_pow_pos (c.dim * (L - e.level))
  rw [Nat.add_mul] at h2
  obtain ⟨a, q1, q2, q3, q4⟩ := initLinearId_spec (c := c) (id := linearId c e L) hL (by rw [h1]; omega)
  exact ⟨a, q1, q2, q3, by rw [q4, h1]⟩

/-- Digits behind a position. -/
theorem append_digits {e : Elem c.dim} (he : Valid c e) {L : Nat} (hl : e.level ≤ L) (hL : L ≤ c.maxLevel)
    {v : BitVec 64} (hv : v.toNat < 2 ^ (c.dim * (L - e.level))) :
    (v ||| (linearId c e e.level <<< (c.dim * (L - e.level)))).toNat =
      pos (T := tree c) e * 2 ^ (c.dim * (L - e.level)) + v.toNat := by
  have h1 := pos_mul_lt he hl
  have h2 : 2 ^ (c.dim * L) < 2 ^ 64 := Nat.pow_lt_pow_right (by omega) (dim_mul_lt hL)
  have h3 := Nat.two_pow_pos (c.dim * (L - e.level))
  rw [Nat.add_mul] at h1
  rw [or_shift hv (by rw [linearId_self he]; omega), linearId_self he, Nat.add_comm]

theorem linearIdLastDesc_eq {e : Elem c.dim} (he : Valid c e) {L : Nat} (hl : e.level ≤ L) (hL : L ≤ c.maxLevel) :
    (linearIdLastDesc c e L).toNat + 1 = (pos (T := tree c) e + 1) * 2 ^ (c.dim * (L - e.level)) := by
  have h3 := Nat.two_pow_pos (c.dim * (L - e.level))
  have hlt : c.dim * (L - e.level) < 64 := dim_mul_lt (by omega)
  have h1 : (((1 : BitVec 64) <<< (c.dim * (L - e.level))) - 1).toNat = 2 ^ (c.dim * (L - e.level)) - 1 := by
    rw [BitVec.toNat_sub_of_le, one_shift hlt]
    · rfl
    · rw [BitVec.le_def, one_shift hlt]
      exact h3
  rw [linearIdLastDesc]
  rw [append_digits he hl hL (by rw [h1]; omega), h1, Nat.add_mul, Nat.one_mul]
  omega

theorem lastDescendant_spec {e : Elem c.dim} (he : Valid c e) {L : Nat} (hl : e.level ≤ L) (hL : L ≤ c.maxLevel) :
    ∃ a, lastDescendant c e L = some a ∧ Valid c a ∧ a.level = L ∧
      pos (T := tree c) a + 1 = (pos (T := tree c) e + 1) * 2 ^ (c.dim * (L - e.level)) := by
  have h1 := linearIdLastDesc_eq he hl hL
  have h2 := pos_mul_lt he hl
  obtain ⟨a, q1, q2, q3, q4⟩ := initLinearId_spec (c := c) (id := linearIdLastDesc c e L) hL (by omega)
  exact ⟨a, q1, q2, q3, by rw [q4, h1]⟩

theorem descendant_spec (c : Cls) : (tree c).DescendantSpec (fun e L => (firstDescendant c e L).getD e)
    (fun e L => (lastDescendant c e L).getD e) := by
  refine (regular c).descendantSpec (fun e L he hl hL => ?_) (fun e L he hl hL => ?_)
  · obtain ⟨a, h1, h2, h3, h4⟩ := firstDescendant_spec he hl hL
    rw [h1, pow_dim]
    exact ⟨h2, h3, h4⟩
  · obtain ⟨a, h1, h2, h3, h4⟩ := lastDescendant_spec he hl hL
    rw [h1, pow_dim]
    exact ⟨h2, h3, h4⟩

/-! ### Order -/

theorem compare_spec (c : Cls) : (tree c).CompareSpec (compare c) := by
  apply compareSpec_of_lin (linearId_spec c)
  intro x y _ _
  show (compare c x y < 0 ↔ _) ∧ (compare c x y = 0 ↔ _)
  rw [compare]
  have hinj : linearId c x (max x.level y.level) = linearId c y (max x.level y.level) ↔
      (linearId c x (max x.level y.level)).toNat = (linearId c y (max x.level y.level)).toNat := BitVec.toNat_inj.symm
  have hlt : linearId c x (max x.level y.level) < linearId c y (max x.level y.level) ↔
      (linearId c x (max x.level y.level)).toNat < (linearId c y (max x.level y.level)).toNat := Iff.rfl
  simp only [hinj, hlt]
  split
  · rename_i h
    rw [h]
    exact ⟨by constructor <;> intro _ <;> simp only [lt_irrefl, true_and, false_or] at * <;> omega,
      by constructor <;> intro _ <;> simp only [true_and] at * <;> omega⟩
  · rename_i h
    split
    · rename_i h2
      exact ⟨⟨fun _ => Or.inl h2, fun _ => by decide⟩, ⟨fun h' => absurd h' (by decide), fun h' => absurd h'.1 h⟩⟩
    · rename_i h2
      rw [if_pos (fun hh => h (hinj.1 hh))]
      refine ⟨⟨fun h' => absurd h' (by decide), ?_⟩, ⟨fun h' => absurd h' (by decide), fun h' => absurd h'.1 h⟩⟩
      rintro (h' | h')
      · exact absurd h' h2
      · exact absurd h'.1 h

theorem isAncestor_spec (c : Cls) : (tree c).IsAncestorSpec (isAncestor c) :=
  Default.isAncestor_spec (T := tree c) (linearId_spec c)

theorem isEqual_iff (e f : Elem c.dim) : isEqual c e f = true ↔ e = f := by
  rw [isEqual]
  simp only [Bool.and_eq_true, beq_iff_eq, List.all_eq_true, List.mem_finRange, true_implies]
  constructor
  · rintro ⟨⟨h1, h2⟩, h3⟩
    refine Elem.ext' (Standalone.Elem.ext' h3 h1) h2
  · rintro rfl
    exact ⟨⟨rfl, rfl⟩, fun _ => rfl⟩

end T8.Simplex
