/-
The refinement tree of the lines of the default scheme. Parents and children are computed as for the lines of
the standalone scheme.
-/
import Verif.Spec.Dline
import Verif.Lemmas.BitVec
import Verif.Lemmas.StandaloneIds
import Verif.Lemmas.DefaultCommon

namespace T8.Dline
open T8.RTree T8.Bits

/-- The same data as an element of the standalone scheme. -/
def toElem (e : Line) : Standalone.Elem 1 := ⟨fun _ => e.x, e.level⟩

theorem toElem_inj {e f : Line} (h : toElem e = toElem f) : e = f := by
  cases e; cases f
  simp only [toElem, Standalone.Elem.mk.injEq] at h
  obtain ⟨h1, h2⟩ := h
  have := congrFun h1 0
  simp_all

theorem toElem_valid {e : Line} : Standalone.Valid maxLevel (toElem e) ↔ Valid e := by
  constructor
  · intro h; exact ⟨h.1, h.2 0⟩
  · intro h; exact ⟨h.1, fun _ => h.2⟩

theorem toElem_parent (e : Line) : toElem (parent e) = Standalone.parent maxLevel (toElem e) := rfl

theorem toElem_root : toElem root = Standalone.root 1 := rfl

theorem toElem_child (e : Line) {i : Nat} (hi : i < 2) : toElem (child e i) = Standalone.child maxLevel (toElem e) i := by
  refine Standalone.Elem.ext' (fun k => ?_) rfl
  have hk : k = 0 := by omega
  subst hk
  have : i = 0 ∨ i = 1 := by omega
  rcases this with rfl | rfl <;> simp [toElem, child, Standalone.child, Standalone.putCubeId, len, Standalone.getLen]

theorem small : 0 < 1 → maxLevel < 32 := fun _ => by decide

theorem len_toNat {l : Nat} : (len l).toNat = 2 ^ (maxLevel - l) := toNat_twoPow (by simp only [maxLevel]; omega)

theorem rootLen_toNat : rootLen.toNat = 2 ^ maxLevel := by decide

theorem childId_nonneg_lt {e : Line} (he : Valid e) :
    childId e = (e.x.toNat / 2 ^ (maxLevel - e.level) % 2 : Nat) := by
  have h31 : e.x.toNat < 2 ^ 31 := lt_trans he.2.1 (by decide)
  have h1 : (e.x.sshiftRight (maxLevel - e.level) &&& 1).toNat = e.x.toNat / 2 ^ (maxLevel - e.level) % 2 := by
    rw [BitVec.toNat_and, toNat_shift _ h31]
    exact Nat.and_one_is_mod _
  rw [childId, toInt_eq _ (by rw [h1]; omega), h1]

theorem childId_eq {e : Line} (he : Valid e) (hl : 0 < e.level) :
    (childId e).toNat = (Standalone.childId maxLevel (toElem e)).toNat := by
  rw [childId_nonneg_lt he, Int.toNat_natCast, Standalone.childId_eq hl]
  have h1 := Standalone.cubeId_lt small (toElem e) (l := e.level) (by omega)
  have h2 : Standalone.cubeId maxLevel (toElem e) (toElem e).level =
      Standalone.cubeId maxLevel (toElem e) e.level := rfl
  rw [h2]
  apply Nat.eq_of_testBit_eq
  intro j
  cases j with
  | succ j =>
    rw [Nat.testBit_lt_two_pow (i := j + 1), Nat.testBit_lt_two_pow (i := j + 1)]
    · exact lt_of_lt_of_le h1 (Nat.pow_le_pow_right (by omega) (by omega))
    · have : 2 ^ (j + 1) = 2 * 2 ^ j := by rw [Nat.pow_succ, Nat.mul_comm]
      have := Nat.two_pow_pos j
      omega
  | zero =>
    rw [Bool.eq_iff_iff, Standalone.cubeId_testBit small (toElem e) (by omega) 0]
    have h3 : (e.x.toNat / 2 ^ (maxLevel - e.level) % 2).testBit 0 = e.x.toNat.testBit (maxLevel - e.level) := by
      rw [Nat.testBit_zero, Nat.mod_mod, ← Nat.testBit_zero, Nat.testBit_div_two_pow, Nat.zero_add]
    rw [h3]
    simp [toElem, BitVec.testBit_toNat]

theorem childId_nat {e : Line} (he : Valid e) : ((childId e).toNat : Int) = childId e := by
  rw [childId_nonneg_lt he]; rfl

theorem child_zero_one {i : Nat} {p : Nat → Prop} (h0 : p 0) (h1 : p 1) (hi : i < 2) : p i := by
  have : i = 0 ∨ i = 1 := by omega
  rcases this with rfl | rfl <;> assumption

theorem valid_child {e : Line} (he : Valid e) (hl : e.level < maxLevel) {i : Nat} (hi : i < 2) : Valid (child e i) := by
  rw [← toElem_valid, toElem_child e hi]
  exact Standalone.valid_child small (toElem_valid.2 he) hl i

theorem valid_parent {e : Line} (he : Valid e) (hl : 0 < e.level) : Valid (parent e) := by
  rw [← toElem_valid, toElem_parent]
  exact Standalone.valid_parent small (toElem_valid.2 he) hl

/-- The refinement tree that the functions of the default scheme span. -/
@[reducible] def tree : RTree where
  E := Line
  Valid := Valid
  maxLevel := maxLevel
  level := Line.level
  root := root
  nc := fun _ => numChildren
  child := child
  parent := parent
  childId := fun e => (childId e).toNat
  valid_root := toElem_valid.1 Standalone.valid_root
  level_root := rfl
  root_unique := fun _ he hl => toElem_inj (Standalone.root_unique (toElem_valid.2 he) hl)
  level_le := fun _ he => he.1
  nc_pos := fun _ _ => by decide
  valid_child := fun _ _ he hl hi => valid_child he hl hi
  level_child := fun _ _ _ _ _ => rfl
  parent_child := fun e i he hl hi => by
    apply toElem_inj
    rw [toElem_parent, toElem_child e hi]
    exact Standalone.parent_child small (toElem_valid.2 he) hl i
  childId_child := fun e i he hl hi => by
    rw [childId_eq (valid_child he hl hi) (by simp [child]), toElem_child e hi]
    exact Standalone.childId_child small (toElem_valid.2 he) hl hi
  valid_parent := fun _ he hl => valid_parent he hl
  level_parent := fun e _ hl => by simp only [parent]; omega
  childId_lt := fun e he hl => by
    rw [childId_eq he hl]
    exact Standalone.childId_lt small hl
  child_parent := fun e he hl => by
    have h1 : (childId e).toNat < 2 := by rw [childId_eq he hl]; exact Standalone.childId_lt small hl
    apply toElem_inj
    rw [toElem_child _ h1, toElem_parent, childId_eq he hl]
    exact Standalone.child_parent small (toElem_valid.2 he) hl

theorem regular : tree.Regular 2 := fun _ _ => rfl

theorem child_x {e : Line} (he : Valid e) (hl : e.level < maxLevel) {i : Nat} (hi : i < 2) :
    (child e i).x.toNat = e.x.toNat + i * 2 ^ (maxLevel - (e.level + 1)) := by
  have hd : 2 ^ (maxLevel - e.level) ∣ 2 ^ maxLevel := pow_dvd (by omega)
  have h1 := add_le_of_dvd he.2.2 hd he.2.1
  have h2 : 2 ^ (maxLevel - e.level) = 2 ^ (maxLevel - (e.level + 1)) * 2 := by
    rw [← Nat.pow_succ]; congr 1; omega
  have h3 : 2 ^ maxLevel < 2 ^ 32 := by decide
  have : i = 0 ∨ i = 1 := by omega
  rcases this with rfl | rfl
  · simp [child]
  · simp only [child, Nat.one_ne_zero, if_false, BitVec.toNat_add, len_toNat, Nat.one_mul]
    exact Nat.mod_eq_of_lt (by omega)

/-- The position of a line on its level. -/
theorem pos_eq : ∀ e : Line, Valid e → pos (T := tree) e = e.x.toNat / 2 ^ (maxLevel - e.level) := by
  have := valid_induction (T := tree) (P := fun e : Line => pos (T := tree) e = e.x.toNat / 2 ^ (maxLevel - e.level))
  apply this
  · rw [pos_root]; simp [root]
  · intro e i he hm hi ih
    have hm' : e.level < maxLevel := hm
    have hi' : i < 2 := hi
    rw [regular.pos_child he hm hi, ih, child_x he hm' hi']
    show _ = _ / 2 ^ (maxLevel - (e.level + 1))
    have h2 : 2 ^ (maxLevel - e.level) = 2 ^ (maxLevel - (e.level + 1)) * 2 := by
      rw [← Nat.pow_succ]; congr 1; omega
    obtain ⟨q, hq⟩ := he.2.2
    have h0 := Nat.two_pow_pos (maxLevel - (e.level + 1))
    rw [hq, h2, Nat.mul_div_cancel_left _ (by omega), Nat.mul_assoc, Nat.mul_comm i,
      ← Nat.mul_add, Nat.mul_div_cancel_left _ h0, Nat.mul_comm 2]

theorem x_eq {e : Line} (he : Valid e) : e.x.toNat = pos (T := tree) e * 2 ^ (maxLevel - e.level) := by
  rw [pos_eq e he, Nat.div_mul_cancel he.2.2]

/-- Elements from positions. -/
theorem of_pos {e : Line} {q : Nat} (hl : e.level ≤ maxLevel) (hq : q < 2 ^ e.level)
    (hx : e.x.toNat = q * 2 ^ (maxLevel - e.level)) : Valid e ∧ pos (T := tree) e = q := by
  have hv : Valid e := by
    refine ⟨hl, ?_, hx ▸ Nat.dvd_mul_left _ _⟩
    rw [hx]
    calc q * 2 ^ (maxLevel - e.level) < 2 ^ e.level * 2 ^ (maxLevel - e.level) :=
          Nat.mul_lt_mul_of_pos_right hq (Nat.two_pow_pos _)
      _ = 2 ^ maxLevel := by rw [← Nat.pow_add]; congr 1; omega
  exact ⟨hv, by rw [pos_eq e hv, hx, Nat.mul_div_cancel _ (Nat.two_pow_pos _)]⟩

theorem linearId_toNat {e : Line} (he : Valid e) (L : Nat) :
    (linearId e L).toNat = e.x.toNat / 2 ^ (maxLevel - L) := by
  have h31 : e.x.toNat < 2 ^ 31 := lt_trans he.2.1 (by decide)
  have h1 := toNat_shift e.x h31 (maxLevel - L)
  rw [linearId, toNat_signExtend _ (by rw [h1]; exact lt_of_le_of_lt (Nat.div_le_self _ _) h31), h1]

theorem linearId_spec : tree.LinearIdSpec (fun e L => (linearId e L).toNat) := by
  apply regular.linearIdSpec
  · intro e L he hl
    have hl' : L ≤ e.level := hl
    have hm : e.level ≤ maxLevel := he.1
    show (linearId e L).toNat = _ / 2 ^ (e.level - L)
    rw [linearId_toNat he, pos_eq e he, Nat.div_div_eq_div_mul, ← Nat.pow_add]
    congr 2; omega
  · intro e L he hl hL
    have hl' : e.level < L := hl
    have hL' : L ≤ maxLevel := hL
    show (linearId e L).toNat = _ * 2 ^ (L - e.level)
    have h2 : 2 ^ (maxLevel - e.level) = 2 ^ (L - e.level) * 2 ^ (maxLevel - L) := by
      rw [← Nat.pow_add]; congr 1; omega
    rw [linearId_toNat he, x_eq he, h2, ← Nat.mul_assoc, Nat.mul_div_cancel _ (Nat.two_pow_pos _)]

theorem setLinearId_spec : tree.SetLinearIdSpec (fun L id => initLinearId L (BitVec.ofNat 64 id)) := by
  apply regular.setLinearIdSpec
  intro L id hL hid
  have hL' : L ≤ maxLevel := hL
  have hp : 2 ^ L ≤ 2 ^ maxLevel := Nat.pow_le_pow_right (by omega) hL'
  have h64 : 2 ^ maxLevel < 2 ^ 64 := by decide
  have h32 : 2 ^ maxLevel < 2 ^ 32 := by decide
  have hid' : (BitVec.ofNat 64 id).toNat = id := by
    rw [BitVec.toNat_ofNat]; exact Nat.mod_eq_of_lt (by omega)
  have hmul : id * 2 ^ (maxLevel - L) < 2 ^ maxLevel := by
    calc id * 2 ^ (maxLevel - L) < 2 ^ L * 2 ^ (maxLevel - L) := Nat.mul_lt_mul_of_pos_right hid (Nat.two_pow_pos _)
      _ = 2 ^ maxLevel := by rw [← Nat.pow_add]; congr 1; omega
  have hxv : ((BitVec.ofNat 64 id <<< (maxLevel - L)).setWidth 32).toNat = id * 2 ^ (maxLevel - L) := by
    rw [BitVec.toNat_setWidth, BitVec.toNat_shiftLeft, hid', Nat.shiftLeft_eq,
      Nat.mod_eq_of_lt (lt_trans hmul h64), Nat.mod_eq_of_lt (lt_trans hmul h32)]
  have hlt : BitVec.ofNat 64 id < (1 : BitVec 64) <<< L := by
    rw [BitVec.lt_def, hid', BitVec.toNat_shiftLeft, Nat.shiftLeft_eq]
    show id < 1 * 2 ^ L % 2 ^ 64
    rw [Nat.one_mul, Nat.mod_eq_of_lt (by omega)]
    exact hid
  obtain ⟨h1, h2⟩ := of_pos (e := ⟨(BitVec.ofNat 64 id <<< (maxLevel - L)).setWidth 32, L⟩) hL' hid hxv
  refine ⟨_, ?_, h1, rfl, h2⟩
  rw [initLinearId, assertO_true hL', assertO_true hlt]
  rfl

theorem cleared {e : Line} (he : Valid e) {l : Nat} (hl : l ≤ e.level) :
    (e.x &&& ~~~(len l - 1)).toNat = e.x.toNat / 2 ^ (maxLevel - l) * 2 ^ (maxLevel - l) :=
  toNat_clear e.x (by simp only [maxLevel]; omega)

theorem pow_split {l : Nat} (hl : l ≤ maxLevel) : 2 ^ maxLevel = 2 ^ l * 2 ^ (maxLevel - l) := by
  rw [← Nat.pow_add]; congr 1; omega

theorem successor_spec : tree.SuccessorSpec (fun e => successor e e.level) := by
  apply regular.successorSpec
  intro e he hlt
  have hlt' : pos (T := tree) e + 1 < 2 ^ e.level := hlt
  have hm : e.level ≤ maxLevel := he.1
  have hs := pow_split hm
  have hx := x_eq he
  have h0 := Nat.two_pow_pos (maxLevel - e.level)
  have hl1 : 1 ≤ e.level := by
    rcases Nat.eq_zero_or_pos e.level with h | h
    · rw [h] at hlt'; omega
    · exact h
  have hle : (pos (T := tree) e + 1 + 1) * 2 ^ (maxLevel - e.level) ≤ 2 ^ maxLevel := by
    rw [hs]; exact Nat.mul_le_mul_right _ hlt'
  have e1 : (pos (T := tree) e + 1) * 2 ^ (maxLevel - e.level) =
      pos (T := tree) e * 2 ^ (maxLevel - e.level) + 2 ^ (maxLevel - e.level) := by rw [Nat.add_mul, Nat.one_mul]
  have e2 : (pos (T := tree) e + 1 + 1) * 2 ^ (maxLevel - e.level) =
      (pos (T := tree) e + 1) * 2 ^ (maxLevel - e.level) + 2 ^ (maxLevel - e.level) := by
    rw [Nat.add_mul (pos (T := tree) e + 1), Nat.one_mul]
  have hM : 2 ^ maxLevel < 2 ^ 31 := by decide
  have hsub : (rootLen - len e.level).toNat = 2 ^ maxLevel - 2 ^ (maxLevel - e.level) := by
    rw [BitVec.toNat_sub, rootLen_toNat, len_toNat]
    have : 2 ^ maxLevel < 2 ^ 32 := by decide
    omega
  have hnew : ((e.x &&& ~~~(len e.level - 1)) + len e.level).toNat =
      (pos (T := tree) e + 1) * 2 ^ (maxLevel - e.level) := by
    rw [BitVec.toNat_add, cleared he (le_refl _), Nat.div_mul_cancel he.2.2, len_toNat, hx, e1]
    exact Nat.mod_eq_of_lt (by omega)
  obtain ⟨h1, h2⟩ := of_pos (e := ⟨(e.x &&& ~~~(len e.level - 1)) + len e.level, e.level⟩) hm hlt' hnew
  refine ⟨_, ?_, h1, rfl, h2⟩
  have hx31 : e.x.toNat < 2 ^ 31 := lt_trans he.2.1 hM
  rw [successor, assertO_true ⟨hl1, le_refl _⟩, assertO_true]
  · rfl
  · rw [toInt_eq _ hx31, toInt_eq _ (by rw [hsub]; omega), hsub]
    omega

theorem lastDescendant_x {e : Line} (he : Valid e) {L : Nat} (hl : e.level ≤ L) :
    (lastDescendant e L).x.toNat = e.x.toNat + 2 ^ (maxLevel - e.level) - 2 ^ (maxLevel - L) := by
  have h1 := add_le_of_dvd he.2.2 (pow_dvd (show maxLevel - e.level ≤ maxLevel by omega)) he.2.1
  have h2 : 2 ^ (maxLevel - L) ≤ 2 ^ (maxLevel - e.level) := Nat.pow_le_pow_right (by omega) (by omega)
  have h3 : 2 ^ maxLevel < 2 ^ 32 := by decide
  simp only [lastDescendant, BitVec.toNat_sub, BitVec.toNat_add, len_toNat]
  generalize 2 ^ (maxLevel - L) = a at *
  generalize 2 ^ (maxLevel - e.level) = b at *
  generalize 2 ^ maxLevel = c at *
  rw [Nat.mod_eq_of_lt (a := e.x.toNat + _) (by omega)]
  omega

theorem firstDescendant_pos {e : Line} (he : Valid e) {L : Nat} (hl' : e.level ≤ L) (hL' : L ≤ maxLevel) :
    Valid (firstDescendant e L) ∧ pos (T := tree) (firstDescendant e L) = pos (T := tree) e * 2 ^ (L - e.level) := by
  have hp := regular.pos_lt (e := e) he
  have hp' : pos (T := tree) e < 2 ^ e.level := hp
  have hq : pos (T := tree) e * 2 ^ (L - e.level) < 2 ^ L := by
    calc _ < 2 ^ e.level * 2 ^ (L - e.level) := Nat.mul_lt_mul_of_pos_right hp' (Nat.two_pow_pos _)
      _ = 2 ^ L := by rw [← Nat.pow_add]; congr 1; omega
  exact of_pos (e := firstDescendant e L) hL' hq (by
    show e.x.toNat = _ * 2 ^ (maxLevel - L)
    rw [x_eq he, Nat.mul_assoc, ← Nat.pow_add]; congr 2; omega)

theorem lastDescendant_pos {e : Line} (he : Valid e) {L : Nat} (hl' : e.level ≤ L) (hL' : L ≤ maxLevel) :
    Valid (lastDescendant e L) ∧
      pos (T := tree) (lastDescendant e L) + 1 = (pos (T := tree) e + 1) * 2 ^ (L - e.level) := by
  have hp' : pos (T := tree) e < 2 ^ e.level := regular.pos_lt (e := e) he
  have hq : (pos (T := tree) e + 1) * 2 ^ (L - e.level) ≤ 2 ^ L := by
    calc _ ≤ 2 ^ e.level * 2 ^ (L - e.level) := Nat.mul_le_mul_right _ hp'
      _ = 2 ^ L := by rw [← Nat.pow_add]; congr 1; omega
  have h0 : 0 < (pos (T := tree) e + 1) * 2 ^ (L - e.level) := Nat.mul_pos (by omega) (Nat.two_pow_pos _)
  obtain ⟨h1, h2⟩ := of_pos (e := lastDescendant e L) (q := (pos (T := tree) e + 1) * 2 ^ (L - e.level) - 1) hL'
    (by show _ < 2 ^ L; omega) (by
      rw [lastDescendant_x he hl']
      show _ = _ * 2 ^ (maxLevel - L)
      rw [Nat.sub_mul, Nat.one_mul, Nat.mul_assoc, ← Nat.pow_add, x_eq he, Nat.add_mul, Nat.one_mul]
      congr 3 <;> congr 1 <;> omega)
  refine ⟨h1, ?_⟩
  rw [h2]
  omega

theorem descendant_spec : tree.DescendantSpec firstDescendant lastDescendant := by
  apply regular.descendantSpec
  · intro e L he hl hL
    obtain ⟨h1, h2⟩ := firstDescendant_pos he hl hL
    exact ⟨h1, rfl, h2⟩
  · intro e L he hl hL
    obtain ⟨h1, h2⟩ := lastDescendant_pos he hl hL
    exact ⟨h1, rfl, h2⟩

theorem compare_spec : tree.CompareSpec compare := by
  apply compareSpec_of
  intro e f he hf
  have he' : Valid e := he
  have hf' : Valid f := hf
  have hL := max_le he'.1 hf'.1
  rw [show max (tree.level e) (tree.level f) = max e.level f.level from rfl,
    regular.lid_eq he (by show e.level ≤ _; omega) hL, regular.lid_eq hf (by show f.level ≤ _; omega) hL]
  have aux : ∀ g : Line, Valid g → g.level ≤ max e.level f.level →
      pos (T := tree) g * 2 ^ (max e.level f.level - tree.level g) * 2 ^ (maxLevel - max e.level f.level) = g.x.toNat := by
    intro g hg hgl
    rw [x_eq hg, Nat.mul_assoc, ← Nat.pow_add]
    have : maxLevel - g.level = max e.level f.level - tree.level g + (maxLevel - max e.level f.level) := by
      have := hg.1
      show _ = max e.level f.level - g.level + _
      omega
    rw [this]
  have a1 := aux e he' (by omega)
  have a2 := aux f hf' (by omega)
  generalize hP : pos (T := tree) e * 2 ^ (max e.level f.level - tree.level e) = P at a1 ⊢
  generalize hQ : pos (T := tree) f * 2 ^ (max e.level f.level - tree.level f) = Q at a2 ⊢
  have h0 := Nat.two_pow_pos (maxLevel - max e.level f.level)
  have hlt : P < Q ↔ e.x.toNat < f.x.toNat := by
    rw [← a1, ← a2]
    exact (Nat.mul_lt_mul_right h0).symm
  have heq : P = Q ↔ e.x.toNat = f.x.toNat := by
    rw [← a1, ← a2]
    exact (Nat.mul_left_inj (by omega)).symm
  have x1 := toNat_signExtend e.x (lt_trans he'.2.1 (by decide))
  have x2 := toNat_signExtend f.x (lt_trans hf'.2.1 (by decide))
  have c1 : (e.x.signExtend 64 = f.x.signExtend 64) ↔ e.x.toNat = f.x.toNat := by
    rw [← BitVec.toNat_inj, x1, x2]
  have c2 : (e.x.signExtend 64 < f.x.signExtend 64) ↔ e.x.toNat < f.x.toNat := by
    rw [BitVec.lt_def, x1, x2]
  rw [hlt, heq]
  show (compare e f < 0 ↔ _ ∨ _ ∧ e.level < f.level) ∧ (compare e f = 0 ↔ _ ∧ e.level = f.level)
  unfold compare
  simp only [c1, c2]
  split
  · omega
  · split
    · omega
    · rw [if_pos (by rw [Ne, c1]; assumption)]
      omega

theorem isAncestor_spec : tree.IsAncestorSpec isAncestor :=
  Default.isAncestor_spec (T := tree) linearId_spec

/-- `t8_dline_ancestor` is the ancestor. -/
theorem ancestor_eq {e : Line} (he : Valid e) {l : Nat} (hl : l ≤ e.level) : ancestor e l = tree.anc e l := by
  have hv : Valid e := he
  have hm : l ≤ maxLevel := le_trans hl hv.1
  have hx := cleared hv hl
  have hq : e.x.toNat / 2 ^ (maxLevel - l) < 2 ^ l := by
    rw [Nat.div_lt_iff_lt_mul (Nat.two_pow_pos _), ← pow_split hm]; exact hv.2.1
  obtain ⟨h1, h2⟩ := of_pos (e := ancestor e l) hm hq hx
  apply regular.pos_inj h1 (valid_anc he l) (by rw [level_anc he hl]; rfl)
  rw [h2, regular.pos_anc he hl, pos_eq e hv, Nat.div_div_eq_div_mul, ← Nat.pow_add]
  congr 2
  have := hv.1
  show _ = maxLevel - e.level + (e.level - l)
  omega

theorem ancestorId_eq {e : Line} (he : Valid e) {l : Nat} (h0 : 0 < l) (hl : l ≤ e.level) :
    ancestorId e l = tree.childId (tree.anc e l) := by
  have hv : Valid e := he
  rw [ancestorId, if_neg (by omega), regular.childId_anc he h0 hl, pos_eq e hv, Nat.div_div_eq_div_mul, ← Nat.pow_add]
  have h1 : maxLevel - e.level + (tree.level e - l) = maxLevel - l := by
    have := hv.1
    show maxLevel - e.level + (e.level - l) = _
    omega
  have h2 := Standalone.and_getLen_ne_zero e.x (M := maxLevel) (by decide) l
  have h3 : e.x.toNat / 2 ^ (maxLevel - l) % 2 = if e.x.toNat.testBit (maxLevel - l) then 1 else 0 := by
    rw [show maxLevel - l = maxLevel - l + 0 by rfl, Nat.add_comm, ← Nat.testBit_div_two_pow, Nat.add_comm]
    rw [Nat.testBit_zero]
    have := Nat.mod_lt (e.x.toNat / 2 ^ (maxLevel - l)) (show 0 < 2 by omega)
    split <;> simp_all <;> omega
  rw [h1, h3]
  have h4 : (e.x &&& len l ≠ 0) ↔ e.x.toNat.testBit (maxLevel - l) = true := h2.trans (by rw [BitVec.testBit_toNat])
  by_cases hb : e.x.toNat.testBit (maxLevel - l) = true
  · rw [if_pos (h4.2 hb), if_pos hb]; rfl
  · rw [if_neg (fun h => hb (h4.1 h)), if_neg hb]; rfl

theorem nca_spec : tree.NcaSpec nca := by
  intro x y hx hy
  have hx' : Valid x := hx
  have hy' : Valid y := hy
  obtain ⟨ha1, ha2⟩ := Standalone.activeBits_spec (x.x ^^^ y.x)
  have hbit : ∀ e : Line, Valid e → ∀ k, maxLevel ≤ k → e.x.getLsbD k = false := by
    intro e he k hk
    rw [← BitVec.testBit_toNat]
    exact Nat.testBit_lt_two_pow (lt_of_lt_of_le he.2.1 (Nat.pow_le_pow_right (by omega) hk))
  have hle : Standalone.activeBits (x.x ^^^ y.x) ≤ maxLevel := by
    by_contra hc
    have h1 := ha2 (by omega)
    rw [BitVec.getLsbD_xor, hbit x hx' _ (by omega), hbit y hy' _ (by omega)] at h1
    cases h1
  generalize hA : Standalone.activeBits (x.x ^^^ y.x) = A at ha1 ha2 hle
  let m := min (maxLevel - A) (min x.level y.level)
  have hagree : ∀ k, A ≤ k → x.x.getLsbD k = y.x.getLsbD k := by
    intro k hk
    by_contra hne
    have := ha1 k (by rw [BitVec.getLsbD_xor]; simpa using hne)
    omega
  have hdiv : ∀ k, A ≤ k → x.x.toNat / 2 ^ k = y.x.toNat / 2 ^ k := by
    intro k hk
    apply Nat.eq_of_testBit_eq
    intro j
    rw [Nat.testBit_div_two_pow, Nat.testBit_div_two_pow, BitVec.testBit_toNat, BitVec.testBit_toNat]
    exact hagree _ (by omega)
  have hmx : m ≤ x.level := by omega
  have hmy : m ≤ y.level := by omega
  have ancx : ∀ e : Line, Valid e → ∀ l, l ≤ e.level →
      pos (T := tree) (tree.anc e l) = e.x.toNat / 2 ^ (maxLevel - l) := by
    intro e he l hl
    rw [regular.pos_anc he hl, pos_eq e he, Nat.div_div_eq_div_mul, ← Nat.pow_add]
    congr 2
    have := he.1
    show maxLevel - e.level + (e.level - l) = _
    omega
  have hanc : tree.anc x m = tree.anc y m := by
    apply regular.pos_inj (valid_anc hx m) (valid_anc hy m) (by rw [level_anc hx hmx, level_anc hy hmy])
    rw [ancx x hx' m hmx, ancx y hy' m hmy]
    exact hdiv _ (by omega)
  -- the coordinates are aligned, so clearing more bits than the common ones changes nothing
  have hres : (⟨x.x &&& ~~~(BitVec.twoPow 32 A - 1), m⟩ : Line) = tree.anc x m := by
    rw [← ancestor_eq hx' hmx, ancestor]
    congr 1
    apply BitVec.eq_of_toNat_eq
    rw [cleared hx' hmx, toNat_clear x.x (by have : maxLevel < 32 := by decide
                                             omega)]
    rcases Nat.lt_or_ge (maxLevel - A) (min x.level y.level) with hc | hc
    · have : maxLevel - m = A := by omega
      rw [this]
    · -- `m` is the level of one of the elements
      have hmm : m = min x.level y.level := by omega
      have hAm : A ≤ maxLevel - m := by omega
      rcases Nat.le_total x.level y.level with hxy | hxy
      · have hml : maxLevel - m = maxLevel - x.level := by omega
        have h1 : 2 ^ (maxLevel - m) ∣ x.x.toNat := by rw [hml]; exact hx'.2.2
        have h2 : 2 ^ A ∣ x.x.toNat := dvd_trans (pow_dvd hAm) h1
        rw [Nat.div_mul_cancel h2, Nat.div_mul_cancel h1]
      · have hml : maxLevel - m = maxLevel - y.level := by omega
        have h1 : 2 ^ (maxLevel - m) ∣ y.x.toNat := by rw [hml]; exact hy'.2.2
        have h2 : 2 ^ A ∣ y.x.toNat := dvd_trans (pow_dvd hAm) h1
        rw [hdiv A (le_refl _), hdiv _ hAm, Nat.div_mul_cancel h2, Nat.div_mul_cancel h1]
  refine ⟨tree.anc x m, ?_, valid_anc hx m, ?_⟩
  · rw [nca, ← hres]
    simp only [hA]
    rw [assertO_true hle]
    rfl
  · refine isNca_anc hx hy hmx hmy hanc ?_
    intro h1 h2 hc
    have h1' : m < x.level := h1
    have h2' : m < y.level := h2
    have hp := congrArg (pos (T := tree)) hc
    rw [ancx x hx' _ h1', ancx y hy' _ h2'] at hp
    have hpos : 0 < A := by have := hx'.1; omega
    have hmA : maxLevel - (m + 1) = A - 1 := by omega
    have hb := congrArg (fun n => n.testBit 0) hp
    simp only [Nat.testBit_div_two_pow, hmA, Nat.zero_add, BitVec.testBit_toNat] at hb
    have := ha2 hpos
    rw [BitVec.getLsbD_xor, hb] at this
    simp at this

end T8.Dline
