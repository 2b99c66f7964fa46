/-
Lemmas about the default pyramids: successors.
-/
import Verif.Lemmas.PyramidLinear

namespace T8.Pyramid
open T8.RTree T8.Bits
open T8.Simplex (look Cls)

/-- `s` is `e` apart from the bits below the length of `e` (and the level). -/
structure Rep (e s : Elem) : Prop where
  type : s.type = e.type
  switch : s.switch = e.switch
  bits : ∀ i k, 21 - e.level ≤ k → (s.tet.x i).getLsbD k = (e.tet.x i).getLsbD k

theorem bits_lt {e : Elem} (he : Good e) (i : Fin 3) (k : Nat) (h : (e.tet.x i).getLsbD k = true) :
    21 - e.level ≤ k ∧ k < 21 :=
  (Standalone.valid_iff_bits.1 he.cube).2 i k h

theorem Rep.lt {e s : Elem} (he : Good e) (h : Rep e s) (i : Fin 3) : (s.tet.x i).toNat < 2 ^ 21 := by
  apply Nat.lt_pow_two_of_testBit
  intro k hk
  rw [BitVec.testBit_toNat]
  by_contra hb
  rw [Bool.not_eq_false, h.bits i k (by omega)] at hb
  have := (bits_lt he i k hb).2
  omega

theorem Rep.refl (e : Elem) : Rep e e := ⟨rfl, rfl, fun _ _ _ => rfl⟩

theorem Rep.cubeid {e s : Elem} (h : Rep e s) : computeCubeid s e.level = computeCubeid e e.level := by
  rcases Nat.eq_zero_or_pos e.level with h0 | h0
  · rw [h0]; rfl
  · refine cid_ext (cubeid_lt _ _) (cubeid_lt _ _) fun i => ?_
    rw [cubeid_testBit _ (by omega), cubeid_testBit _ (by omega), h.bits i _ (le_refl _)]

theorem Rep.childId {e s : Elem} (h : Rep e s) (hl : s.level = e.level) : childId s = childId e := by
  have hp : isPyra s = isPyra e := by rw [isPyra, isPyra, h.type]
  have hc := h.cubeid
  rw [Pyramid.childId, Pyramid.childId, hp, h.switch, hl, h.type, hc]
  have : Simplex.childId .tet s.tet = Simplex.childId .tet e.tet := by
    rw [Simplex.childId, Simplex.childId, ← cubeid_eq, ← cubeid_eq]
    show look _ s.type (computeCubeid s s.level) = look _ e.type (computeCubeid e e.level)
    rw [hl, h.type, hc]
  rw [this]

theorem Rep.numSiblings {e s : Elem} (h : Rep e s) (hl : s.level = e.level) : numSiblings s = numSiblings e := by
  have hp : isPyra s = isPyra e := by rw [isPyra, isPyra, h.type]
  rw [Pyramid.numSiblings, Pyramid.numSiblings, hp, h.switch, hl]

theorem Rep.tetparent {e s : Elem} (he : Good e) (h : Rep e s) (hl : s.level = e.level) : tetparentType s = tetparentType e := by
  have : (s.tet.x 2).sshiftRight (maxLevel - s.level) = (e.tet.x 2).sshiftRight (maxLevel - e.level) := by
    rw [hl]
    apply BitVec.eq_of_getLsbD_eq
    intro k hk
    have e1 : (s.tet.x 2).msb = false := by
      rw [BitVec.msb_eq_false_iff_two_mul_lt]; have := h.lt he 2; omega
    have e2 : (e.tet.x 2).msb = false := by
      rw [BitVec.msb_eq_false_iff_two_mul_lt]; have := (Rep.refl e).lt he 2; omega
    rw [BitVec.sshiftRight_eq_of_msb_false e1, BitVec.sshiftRight_eq_of_msb_false e2, BitVec.getLsbD_ushiftRight,
      BitVec.getLsbD_ushiftRight]
    exact h.bits 2 _ (by show 21 - e.level ≤ 21 - e.level + k; omega)
  rw [tetparentType, tetparentType, this]

theorem Rep.parent {e s : Elem} (he : Good e) (h : Rep e s) (hl : s.level = e.level) :
    parent s = ⟨⟨fun i => s.tet.x i &&& ~~~len e.level, e.level - 1, (parent e).type⟩, (parent e).switch⟩ := by
  have hc := h.cubeid
  by_cases h6 : 6 ≤ e.type
  · have h6' : 6 ≤ s.type := by rw [h.type]; exact h6
    rw [Pyramid.parent, Pyramid.parent, if_pos ((isPyra_iff s).2 h6'), if_pos ((isPyra_iff e).2 h6), hl, h.type, hc]
  · have h6' : ¬ 6 ≤ s.type := by rw [h.type]; exact h6
    by_cases hs : e.switch = e.level
    · have hs' : s.switch = s.level := by rw [h.switch, hl]; exact hs
      obtain ⟨q1, q2⟩ := parent_tet h6 hs
      rw [q1, q2, Pyramid.parent, if_neg (by rw [isPyra_iff]; exact h6'), if_pos hs', h.tetparent he hl, hl]
    · have hs' : s.switch ≠ s.level := by rw [h.switch, hl]; exact hs
      rw [parent_tet' h6 hs, parent_tet' h6' hs', Simplex.parent, Simplex.parent, h.switch]
      simp only [← cubeid_eq]
      show (⟨⟨fun i => s.tet.x i &&& ~~~len s.level, s.level - 1, look _ (computeCubeid s s.level) s.type⟩, _⟩ : Elem) = 
        ⟨⟨fun i => s.tet.x i &&& ~~~len e.level, e.level - 1, look _ (computeCubeid e e.level) e.type⟩, _⟩
      rw [hl, h.type, hc]

theorem clear_bit (v : BitVec 32) (l : Nat) (k : Nat) :
    (v &&& ~~~len l).getLsbD k = (v.getLsbD k && decide (21 - l ≠ k)) := by
  have hlen : len l = BitVec.twoPow 32 (21 - l) := rfl
  rw [BitVec.getLsbD_and, BitVec.getLsbD_not, hlen, BitVec.getLsbD_twoPow]
  by_cases hk : k < 32
  · have : 21 - l < 32 := by omega
    simp [hk, this]
  · rw [BitVec.getLsbD_of_ge v k (by omega)]; rfl

theorem half_sum' (v : BitVec 32) (hv : v.toNat < 2 ^ 21) {l : Nat} (hl : l < 21) (b : Bool) :
    (v + (v + if b then len l else 0)).sshiftRight 1 = v + if b then len (l + 1) else 0 := by
  have h3 : 2 ^ (21 - l) = 2 * 2 ^ (21 - (l + 1)) := by rw [← Nat.pow_succ']; congr 1; omega
  have h4 : (if b then len l else 0).toNat = if b then 2 ^ (21 - l) else 0 := by
    cases b
    · rfl
    · exact len_toNat l
  have h5 : (if b then len (l + 1) else 0).toNat = if b then 2 ^ (21 - (l + 1)) else 0 := by
    cases b
    · rfl
    · exact len_toNat (l + 1)
  have h6 : 2 ^ (21 - l) ≤ 2 ^ 21 := Nat.pow_le_pow_right (by omega) (by omega)
  have hs : (v + (v + if b then len l else 0)).toNat = v.toNat + (v.toNat + if b then 2 ^ (21 - l) else 0) := by
    rw [BitVec.toNat_add, BitVec.toNat_add, h4, Nat.add_mod_mod, Nat.mod_eq_of_lt]
    split <;> omega
  have hm : (v + (v + if b then len l else 0)).msb = false := by
    rw [BitVec.msb_eq_false_iff_two_mul_lt, hs]
    split <;> omega
  apply BitVec.eq_of_toNat_eq
  rw [BitVec.sshiftRight_eq_of_msb_false hm, BitVec.toNat_ushiftRight, hs, BitVec.toNat_add, h5, Nat.shiftRight_eq_div_pow,
    Nat.mod_eq_of_lt (by split <;> omega)]
  split <;> omega

/-- Children of an element with other lower bits. -/
theorem child_garbage {P : Elem} (hP : Valid P) (hl : P.level < 21) {j : Nat} (hj : j < numChildren P)
    {x : Fin 3 → BitVec 32} (hx : ∀ i, (x i).toNat < 2 ^ 21) :
    child ⟨⟨x, P.level, P.type⟩, P.switch⟩ j =
      ⟨⟨fun i => x i + if look parenttypeIlocToCid P.type j &&& (1 <<< i.val) ≠ 0 then len (P.level + 1) else 0, P.level + 1,
        (child P j).type⟩, (child P j).switch⟩ := by
  by_cases h6 : 6 ≤ P.type
  · have h6' : isPyra ⟨⟨x, P.level, P.type⟩, P.switch⟩ = true := (isPyra_iff _).2 h6
    rw [child, child, if_pos h6', if_pos ((isPyra_iff P).2 h6)]
  · have hg := hP.good
    rw [child_tet (e := ⟨⟨x, P.level, P.type⟩, P.switch⟩) h6, child_tet h6]
    rw [numChildren_eq, if_neg h6] at hj
    have hb := (hg.tet h6).1
    have ht := (tet_tables P.type hb).2 j hj
    have hct := Simplex.child_table .tet P.type hb j hj
    obtain ⟨t1, t2, _, _, _, _, _, t8⟩ := hct
    have hx' : (Simplex.child .tet ⟨x, P.level, P.type⟩ j).x = fun i => x i +
        if look parenttypeIlocToCid P.type j &&& (1 <<< i.val) ≠ 0 then len (P.level + 1) else 0 := by
      funext i
      have h1 : (look parenttypeIlocToCid P.type j &&& (1 <<< i.val) ≠ 0) ↔
          Simplex.rank .tet P.type i ≤ Simplex.vertexOf .tet P.type j := by
        rw [Standalone.and_shift_ne_zero, ht.1]
        have := t8 i
        rw [Simplex.cidOf] at this
        rw [this, decide_eq_true_eq]
      have h2 := half_sum' (x i) (hx i) hl (decide (Simplex.rank .tet P.type i ≤ Simplex.vertexOf .tet P.type j))
      simp only [decide_eq_true_eq] at h2
      simp only [h1]
      rw [← h2]
      simp only [Simplex.child]
      split
      · rename_i h0
        have h0' := t2.1 h0
        have hr := (Simplex.rank_le .tet P.type hb i).1
        rw [h0', if_neg (by omega)] at h2 ⊢
        rw [h2, if_neg (by omega)]; simp
      · have := Simplex.integerCoords_eq (c := .tet) (e := ⟨x, P.level, P.type⟩) hb t1 i
        rw [show (Simplex.beyidToVertex .tet).getD (look (Simplex.indexToBeyNumber .tet) P.type j) 0 =
          Simplex.vertexOf .tet P.type j from rfl]
        show (x i + Simplex.integerCoords .tet ⟨x, P.level, P.type⟩ (Simplex.vertexOf .tet P.type j) i).sshiftRight 1 = _
        rw [this]
        rfl
    show (⟨Simplex.child .tet ⟨x, P.level, P.type⟩ j, P.switch⟩ : Elem) = _
    rw [← hx']
    rfl

theorem child_bits {P : Elem} (hP : Valid P) (hl : P.level < 21) {j : Nat} (hj : j < numChildren P) (i : Fin 3) (k : Nat) :
    ((child P j).tet.x i).getLsbD k = ((P.tet.x i).getLsbD k ||
      ((look parenttypeIlocToCid P.type j).testBit i && decide (21 - (P.level + 1) = k))) := by
  have h1 : (child P j).tet.x i = (Standalone.child 21 P.cube (look parenttypeIlocToCid P.type j)).coords i := by
    rw [← (child_cube hP.good hl hj).1]; rfl
  rw [h1, Standalone.child_bit h32 hP.good.cube hl]
  rfl

theorem add_bit {v : BitVec 32} {n : Nat} (hn : n < 32) (hv : v.getLsbD n = false) (b : Bool) (k : Nat) :
    (v + if b = true then BitVec.twoPow 32 n else 0).getLsbD k = (v.getLsbD k || (b && decide (n = k))) := by
  cases b
  · simp
  · rw [if_pos rfl, BitVec.add_eq_or_of_and_eq_zero, BitVec.getLsbD_or, BitVec.getLsbD_twoPow]
    · simp [hn]
    · apply BitVec.eq_of_getLsbD_eq
      intro m hm
      rw [BitVec.getLsbD_and, BitVec.getLsbD_twoPow]
      by_cases h : n = m
      · subst h; simp [hv]
      · simp [h]

/-- Siblings of an element with other lower bits. -/
theorem Rep.sibling {e s : Elem} (he : Valid e) (h0 : 0 < e.level) (h : Rep e s) (hl : s.level = e.level) {j : Nat}
    (hj : j < numChildren (Pyramid.parent e)) : Rep (child (Pyramid.parent e) j) (child (Pyramid.parent s) j) := by
  have hem : e.level ≤ 21 := he.good.cube.1
  obtain ⟨p, i, h1, h2, h3, rfl⟩ := valid_cases he h0
  have hpar := parent_child h1.good h2 h3
  have hlv := child_level p i
  have hs := h.parent he.good hl
  rw [hpar] at hj hs ⊢
  rw [hlv, Nat.add_sub_cancel] at hs
  have hlt : ∀ a, (s.tet.x a &&& ~~~len (p.level + 1)).toNat < 2 ^ 21 := fun a => by
    rw [BitVec.toNat_and]
    exact lt_of_le_of_lt Nat.and_le_left (h.lt he.good a)
  rw [hs, child_garbage h1 h2 hj hlt]
  refine ⟨rfl, rfl, fun a k hk => ?_⟩
  rw [child_level] at hk
  rw [child_bits h1 h2 hj]
  have hcb := child_bits h1 h2 h3 a k
  have hb := h.bits a k (by rw [hlv]; exact hk)
  rw [hcb] at hb
  show ((s.tet.x a &&& ~~~len (p.level + 1)) + if look parenttypeIlocToCid p.type j &&& (1 <<< a.val) ≠ 0 then
    BitVec.twoPow 32 (21 - (p.level + 1)) else 0).getLsbD k = _
  simp only [Standalone.and_shift_ne_zero]
  rw [add_bit (by omega) (by rw [clear_bit]; simp), clear_bit, hb]
  congr 1
  by_cases hk2 : 21 - (p.level + 1) = k
  · have : (p.tet.x a).getLsbD k = false := by
      by_contra hc
      rw [Bool.not_eq_false] at hc
      have := bits_lt h1.good a k hc
      omega
    rw [this]
    simp
  · have : decide (21 - (p.level + 1) = k) = false := decide_eq_false hk2
    rw [this, decide_eq_true (show 21 - (p.level + 1) ≠ k from hk2)]
    simp

theorem setLevel_eq {e s : Elem} (he : Good e) (h : Rep e s) :
    setLevel s e.level = ⟨⟨s.tet.x, e.level, e.type⟩, e.switch⟩ := by
  rw [setLevel, h.switch, if_neg]
  · rw [← h.type]
  · rcases he.shape with h' | h' <;> omega

theorem body_spec {L0 l : Nat} (hL0 : L0 ≤ 21) (hlL : l < L0)
    (ih : ∀ e s, Valid e → e.level = l → Rep e s → lid (T := tree) e L0 + tree.count e L0 < tree.count root L0 →
      ∃ r n, successorRec l s = some r ∧ Valid n ∧ n.level = l ∧
        lid (T := tree) n L0 = lid (T := tree) e L0 + tree.count e L0 ∧ Rep n r)
    {e s : Elem} (he : Valid e) (hl : e.level = l + 1) (hr : Rep e s) (hs : s.level = l + 1)
    (H : lid (T := tree) e L0 + tree.count e L0 < tree.count root L0) :
    ∃ r n, successorBody (successorRec l) s s (l + 1) = some r ∧ Valid n ∧ n.level = l + 1 ∧
      lid (T := tree) n L0 = lid (T := tree) e L0 + tree.count e L0 ∧ Rep n r ∧ (s = e → r = n) := by
  obtain ⟨p, i, h1, h2, h3, hei⟩ := valid_cases he (by omega)
  have hpl : p.level = l := by rw [hei, child_level] at hl; omega
  have hcid : childId e = i := by rw [hei]; exact childId_child h1.good h2 h3
  have hpar : parent e = p := by rw [hei]; exact parent_child h1.good h2 h3
  have hsib : numSiblings e = numChildren p := by rw [numSiblings_eq he (by omega), hpar]
  have hlid := lid_child (T := tree) h1 h2 h3 (L := L0)
  rw [show tree.child p i = child p i from rfl, ← hei] at hlid
  rw [successorBody, hr.childId (by omega), hr.numSiblings (by omega), hcid, hsib]
  by_cases hlast : i = numChildren p - 1
  · rw [if_pos hlast]
    have hsum : lid (T := tree) e L0 + tree.count e L0 = lid (T := tree) p L0 + tree.count p L0 := by
      have hc := count_children (T := tree) h1 (L := L0) (by show p.level < _; omega) hL0
      have hnc : tree.nc p = i + 1 := by
        show numChildren p = _; omega
      rw [hnc, List.range_succ, List.map_append, List.sum_append] at hc
      rw [hc, hlid]
      rw [hei]
      simp only [List.map_cons, List.map_nil, List.sum_cons, List.sum_nil]
      show _ + tree.count (child p i) L0 = _ + (_ + (tree.count (child p i) L0 + 0))
      omega
    have hcl := child_last h1.good h2
    rw [← hlast, ← hei] at hcl
    have hrp : Rep p s := by
      refine ⟨hr.type.trans hcl.2.1, hr.switch.trans hcl.2.2, fun a k hk => ?_⟩
      rw [hr.bits a k (by omega), hei, child_bits h1 h2 h3]
      have : decide (21 - (p.level + 1) = k) = false := by rw [decide_eq_false_iff_not]; omega
      rw [this, Bool.and_false, Bool.or_false]
    obtain ⟨r, n, r1, r2, r3, r4, r5⟩ := ih p s h1 hpl hrp (by omega)
    have hn0 : 0 < numChildren n := by rw [numChildren_eq]; split <;> omega
    have hz := child_zero r2.good (by omega)
    have hcut : cutCoordinates { r with tet := { r.tet with level := l + 1 } } (maxLevel - (l + 1) + 1) = child n 0 := by
      rw [hz]
      refine Elem.ext' (Standalone.Elem.ext' (fun a => ?_) ?_) r5.type r5.switch
      · apply BitVec.eq_of_getLsbD_eq
        intro k hk
        show ((cutCoordinates r (21 - (l + 1) + 1)).tet.x a).getLsbD k = (n.tet.x a).getLsbD k
        rw [cut_bit _ _ _ hk]
        by_cases hk2 : 21 - (l + 1) + 1 ≤ k
        · rw [r5.bits a k (by omega), decide_eq_true hk2, Bool.and_true]
        · have : (n.tet.x a).getLsbD k = false := by
            by_contra hc
            rw [Bool.not_eq_false] at hc
            have := bits_lt r2.good a k hc
            omega
          rw [this, decide_eq_false hk2, Bool.and_false]
      · show l + 1 = n.level + 1
        omega
    refine ⟨child n 0, child n 0, ?_, valid_child r2 (by omega) hn0, by rw [child_level]; omega, ?_, Rep.refl _, fun _ => rfl⟩
    · simp only [Option.bind_eq_bind, r1, Option.bind_some]
      rw [hcut]
    · have := lid_child (T := tree) r2 (by show n.level < 21; omega) hn0 (L := L0)
      rw [List.range_zero, List.map_nil, List.sum_nil, Nat.add_zero] at this
      rw [hsum, ← r4]
      exact this
  · rw [if_neg hlast]
    have hj : i + 1 < numChildren p := by omega
    refine ⟨child (parent s) (i + 1), child p (i + 1), ?_, valid_child h1 h2 hj, by rw [child_level]; omega, ?_, ?_, ?_⟩
    · have hlev : (child (parent s) (i + 1)).tet.level = l + 1 := by
        have h5 : (child (parent s) (i + 1)).level = (parent s).level + 1 := child_level _ _
        have h6 := hr.parent he.good (by omega)
        rw [h6] at h5
        have h7 : (child (parent s) (i + 1)).level = e.level - 1 + 1 := by rw [h6]; exact h5
        show (child (parent s) (i + 1)).level = _
        omega
      show some (⟨⟨(child (parent s) (i + 1)).tet.x, l + 1, (child (parent s) (i + 1)).tet.type⟩, (child (parent s) (i + 1)).switch⟩ : Elem) = _
      rw [← hlev]
    · have h5 := lid_child (T := tree) h1 h2 hj (L := L0)
      rw [List.range_succ, List.map_append, List.sum_append] at h5
      simp only [List.map_cons, List.map_nil, List.sum_cons, List.sum_nil, Nat.add_zero] at h5
      show lid (T := tree) (tree.child p (i + 1)) L0 = _
      rw [h5, hlid, hei, Nat.add_assoc]
    · have := hr.sibling he (by omega) (by omega) (j := i + 1) (by rw [hpar]; exact hj)
      rw [hpar] at this
      exact this
    · rintro rfl
      rw [hpar]

theorem successorRec_spec {L0 : Nat} (hL0 : L0 ≤ 21) : ∀ (l : Nat), l ≤ L0 → ∀ e s, Valid e → e.level = l → Rep e s →
    lid (T := tree) e L0 + tree.count e L0 < tree.count root L0 →
      ∃ r n, successorRec l s = some r ∧ Valid n ∧ n.level = l ∧
        lid (T := tree) n L0 = lid (T := tree) e L0 + tree.count e L0 ∧ Rep n r := by
  intro l
  induction l with
  | zero =>
    intro _ e s he hl _ H
    have : e = root := tree.root_unique e he hl
    subst this
    omega
  | succ l ih =>
    intro hlL e s he hl hr H
    rw [successorRec]
    have hset := setLevel_eq he.good hr
    rw [hl] at hset
    have hr' : Rep e (setLevel s (l + 1)) := by
      rw [hset]
      exact ⟨rfl, rfl, hr.bits⟩
    obtain ⟨r, n, h1, h2, h3, h4, h5, _⟩ := body_spec hL0 (by omega) (ih (by omega)) he hl hr' (by rw [hset]) H
    exact ⟨r, n, h1, h2, h3, h4, h5⟩

theorem successor_spec : tree.SuccessorSpec (fun e => successor e e.level) := by
  apply successorSpec_of (T := tree)
  intro e he hlt
  have he' : Valid e := he
  have hlt' : lid (T := tree) e e.level + 1 < tree.count root e.level := hlt
  have hem : e.level ≤ 21 := he'.good.cube.1
  obtain ⟨l, hl⟩ : ∃ l, e.level = l + 1 := by
    refine ⟨e.level - 1, ?_⟩
    by_contra h0
    have h1 : e.level = 0 := by omega
    rw [h1, count_root_eq (by omega)] at hlt'
    simp at hlt'
  have hc : tree.count e e.level = 1 := count_self' (T := tree) rfl
  have hset : setLevel e (l + 1) = e := by
    rw [← hl, setLevel_eq he'.good (Rep.refl e)]
  obtain ⟨r, n, h1, h2, h3, h4, _, h6⟩ := body_spec hem (by omega) (successorRec_spec hem l (by omega)) he' hl (Rep.refl e) hl
    (by rw [hc]; exact hlt')
  refine ⟨n, ?_, h2, h3.trans hl.symm, by show lid (T := tree) n e.level = _; rw [h4, hc]⟩
  show successor e e.level = some n
  rw [hl, successor, hset, h1, h6 rfl]

end T8.Pyramid
