/-
Linear ids, successors, descendants, ancestors, comparison and families of the standalone hypercube scheme.
-/
import Verif.Lemmas.Standalone
import Verif.Lemmas.Element
import Mathlib.Algebra.Order.Group.Nat
import Mathlib.Tactic.Ring

namespace T8.Standalone
open RTree
variable {d M : Nat}

theorem uniform_len (h : 0 < d → M < 32) (e : Elem d) (n : Nat) :
    ((treeOf d M h).uniform e n).length = 2 ^ (d * n) := by
  induction n generalizing e with
  | zero => simp [uniform]
  | succ n ih =>
    rw [uniform_succ, List.length_flatMap]
    have : (List.range ((treeOf d M h).nc e)).map
        (fun i => ((treeOf d M h).uniform ((treeOf d M h).child e i) n).length) =
        List.replicate (2 ^ d) (2 ^ (d * n)) := by
      rw [List.eq_replicate_iff]
      refine ⟨by simp [treeOf, numChildren], ?_⟩
      intro b hb
      rw [List.mem_map] at hb
      obtain ⟨i, _, rfl⟩ := hb
      exact ih _
    rw [this, List.sum_replicate_nat, ← pow_add]
    congr 1
    ring

theorem count_eq_pow (h : 0 < d → M < 32) (e : Elem d) (L : Nat) :
    (treeOf d M h).count e L = if L < e.level then 0 else 2 ^ (d * (L - e.level)) := by
  rw [count, uniform_len]

theorem countLeaves_eq (h : 0 < d → M < 32) (e : Elem d) {L : Nat} :
    countLeaves e L = BitVec.ofNat 64 ((treeOf d M h).count e L) := by
  rw [count_eq_pow, countLeaves]
  split
  · rfl
  · rw [numDescendants]
    apply BitVec.eq_of_toNat_eq
    rw [BitVec.toNat_twoPow, BitVec.toNat_ofNat]

theorem foldl_add_ofNat (f : Nat → BitVec 64) (g : Nat → Nat) (l : List Nat) (a : Nat)
    (hfg : ∀ i ∈ l, f i = BitVec.ofNat 64 (g i)) :
    l.foldl (fun s j => s + f j) (BitVec.ofNat 64 a) = BitVec.ofNat 64 (a + (l.map g).sum) := by
  induction l generalizing a with
  | nil => simp
  | cons x l ih =>
    rw [List.foldl_cons, hfg x (by simp), ← BitVec.ofNat_add, ih _ (fun i hi => hfg i (by simp [hi]))]
    simp [Nat.add_assoc]

theorem siblingsBefore_eq (h : 0 < d → M < 32) (p : Elem d) {L : Nat} (c : Nat) :
    siblingsBefore M p L c = BitVec.ofNat 64
      (((List.range c).map (fun j => (treeOf d M h).count ((treeOf d M h).child p j) L)).sum) := by
  have := foldl_add_ofNat (fun j => countLeaves (child M p j) L)
    (fun j => (treeOf d M h).count ((treeOf d M h).child p j) L) (List.range c) 0
    (fun i _ => countLeaves_eq h _)
  rw [siblingsBefore]
  rw [Nat.zero_add] at this
  exact this

theorem linearIdLoop_eq (h : 0 < d → M < 32) {L : Nat} :
    ∀ (n : Nat) (a : Elem d), a.level = n → Valid M a → ∀ id,
    linearIdLoop M L a id = id + BitVec.ofNat 64 (lid (T := treeOf d M h) a L) := by
  intro n
  induction n with
  | zero =>
    intro a hn ha id
    rw [linearIdLoop, if_pos hn, root_unique ha hn]
    have := lid_root (T := treeOf d M h) L
    rw [show (treeOf d M h).root = root d from rfl] at this
    rw [this]; simp
  | succ n ih =>
    intro a hn ha id
    have hp := valid_parent h ha (by omega)
    have hpl : (parent M a).level = n := by simp only [parent]; omega
    have hid := childId_lt h (e := a) (by omega)
    rw [linearIdLoop, if_neg (by omega), ih _ hpl hp, siblingsBefore_eq h _, BitVec.add_assoc,
      ← BitVec.ofNat_add]
    have h1 := lid_child (T := treeOf d M h) (e := parent M a) hp
      (by have := ha.1; simp only; omega) (i := (childId M a).toNat) hid L
    have h2 : (treeOf d M h).child (parent M a) (childId M a).toNat = a := child_parent h ha (by omega)
    rw [h2] at h1
    rw [h1, Nat.add_comm]

/-- Bits of the ancestor. -/
theorem ancestor_bit {e : Elem d} (he : Valid M e) {l : Nat} (hl : l ≤ e.level) (h : 0 < d → M < 32) (i : Fin d)
    (k : Nat) : ((ancestor M e l).coords i).getLsbD k = ((e.coords i).getLsbD k && decide (M - l ≤ k)) := by
  have h32 := h i.pos
  have hb := (valid_iff_bits.1 he).2 i k
  rw [ancestor]
  split
  · rename_i heq
    subst heq
    cases hbk : (e.coords i).getLsbD k with
    | false => simp
    | true => simp [(hb hbk).1]
  · simp only [cut, BitVec.getLsbD_shiftLeft, BitVec.getLsbD_sshiftRight]
    rcases Nat.lt_or_ge k 32 with hk | hk
    · rcases Nat.lt_or_ge k (M - l) with hk2 | hk2
      · have : ¬ (M - l ≤ k) := by omega
        simp [hk2, this]
      · have h1 : ¬ k < M - l := by omega
        have h2 : M - l + (k - (M - l)) = k := by omega
        have h3 : ¬ (32 ≤ k - (M - l)) := by omega
        simp [hk, hk2, h1, h2, h3]
    · simp [hk]

theorem ancestor_level (e : Elem d) (l : Nat) : (ancestor M e l).level = l := by
  rw [ancestor]; split <;> simp_all

theorem parent_ancestor (h : 0 < d → M < 32) {e : Elem d} (he : Valid M e) {l : Nat} (hl : l < e.level) :
    parent M (ancestor M e (l + 1)) = ancestor M e l := by
  have h0 := he.1
  refine Elem.ext' (fun i => ?_) (by rw [ancestor_level]; simp [parent, ancestor_level])
  apply BitVec.eq_of_getLsbD_eq
  intro k hk
  rw [parent_bit h, ancestor_bit he (by omega) h, ancestor_bit he (by omega) h, ancestor_level]
  cases (e.coords i).getLsbD k with
  | false => simp
  | true =>
    simp only [Bool.true_and]
    rw [Bool.eq_iff_iff]
    simp
    omega

theorem ancestor_eq_anc (h : 0 < d → M < 32) {e : Elem d} (he : Valid M e) {l : Nat} (hl : l ≤ e.level) :
    ancestor M e l = (treeOf d M h).anc e l := by
  induction hk : e.level - l generalizing l with
  | zero =>
    have : l = e.level := by omega
    subst this
    rw [ancestor, if_pos rfl]
    exact (anc_self (T := treeOf d M h) e).symm
  | succ k ih =>
    have := ih (l := l + 1) (by omega) (by omega)
    rw [← parent_ancestor h he (by omega), this]
    exact parent_anc (T := treeOf d M h) (e := e) (l := l) (by show l < e.level; omega)

theorem linearId_eq (h : 0 < d → M < 32) (hM : d * M < 64) {e : Elem d} (he : Valid M e) {L : Nat} (hL : L ≤ M) :
    (linearId M e L).toNat = lid (T := treeOf d M h) (if L < e.level then (treeOf d M h).anc e L else e) L := by
  have hdl : d * L < 64 := lt_of_le_of_lt (Nat.mul_le_mul_left d hL) hM
  have key : ∀ a : Elem d, Valid M a → a.level ≤ L →
      (linearIdLoop M L a 0).toNat = lid (T := treeOf d M h) a L := by
    intro a ha hal
    rw [linearIdLoop_eq h _ a rfl ha]
    have h1 := lid_lt (T := treeOf d M h) (x := a) ha (L := L) hal hL
    rw [count_eq_pow, count_eq_pow] at h1
    simp only [show ¬ (L < ((treeOf d M h).root).level) from by simp [root], if_neg (by omega : ¬ L < a.level),
      if_false] at h1
    have h2 : 0 < 2 ^ (d * (L - a.level)) := Nat.two_pow_pos _
    have h3 : 2 ^ (d * (L - (root d).level)) ≤ 2 ^ 64 := by
      apply Nat.pow_le_pow_right (by omega)
      simp only [root, Nat.sub_zero]
      omega
    simp only [BitVec.ofNat_eq_ofNat, BitVec.zero_add, BitVec.toNat_ofNat]
    exact Nat.mod_eq_of_lt (by omega)
  rw [linearId]
  split
  · rename_i hlt
    rw [ancestor_eq_anc h he hlt.le]
    exact key _ (valid_anc (T := treeOf d M h) he L) (level_anc (T := treeOf d M h) he hlt.le).le
  · rename_i hge
    exact key _ he (by omega)

/-! ### First and last descendants -/

theorem firstDescendant_eq (h : 0 < d → M < 32) {e : Elem d} (he : Valid M e) {n : Nat} (hn : e.level + n ≤ M) :
    firstDescendant e (e.level + n) = (treeOf d M h).firstDesc e n := by
  induction n generalizing e with
  | zero => rfl
  | succ n ih =>
    have hv := valid_child h he (by omega) 0
    have := ih hv (by simp only [child]; omega)
    rw [firstDesc]
    rw [show (treeOf d M h).child e 0 = child M e 0 from rfl, ← this]
    refine Elem.ext' (fun i => ?_) (by simp only [firstDescendant, child]; omega)
    apply BitVec.eq_of_getLsbD_eq
    intro k hk
    simp only [firstDescendant]
    rw [child_bit h he (by omega)]
    simp

theorem sub_len_bit (hM : M < 32) {a b : Nat} (hab : a ≤ b) (hb : b ≤ M) (k : Nat) :
    (getLen M a - getLen M b).getLsbD k = decide (M - b ≤ k ∧ k < M - a) := by
  have h1 : 2 ^ (M - b) ≤ 2 ^ (M - a) := Nat.pow_le_pow_right (by omega) (by omega)
  have h2 : 2 ^ (M - a) < 2 ^ 32 := Nat.pow_lt_pow_right (by omega) (by omega)
  have h3 : (getLen M a - getLen M b).toNat = 2 ^ (M - a) - 2 ^ (M - b) := by
    rw [BitVec.toNat_sub_of_le]
    · rw [getLen, getLen, BitVec.toNat_twoPow, BitVec.toNat_twoPow, Nat.mod_eq_of_lt h2,
        Nat.mod_eq_of_lt (by omega)]
    · rw [BitVec.le_def, getLen, getLen, BitVec.toNat_twoPow, BitVec.toNat_twoPow, Nat.mod_eq_of_lt h2,
        Nat.mod_eq_of_lt (by omega)]
      exact h1
  rw [← BitVec.testBit_toNat, h3]
  have h4 : 2 ^ (M - a) - 2 ^ (M - b) = 2 ^ (M - b) * (2 ^ (b - a) - 1) := by
    rw [Nat.mul_sub, ← pow_add, Nat.mul_one]
    congr 2
    omega
  rw [h4, Nat.testBit_two_pow_mul, Nat.testBit_two_pow_sub_one]
  rw [Bool.eq_iff_iff]
  simp
  omega

theorem lastDescendant_eq (h : 0 < d → M < 32) {e : Elem d} (he : Valid M e) {n : Nat} (hn : e.level + n ≤ M) :
    lastDescendant M e (e.level + n) = (treeOf d M h).lastDesc e n := by
  induction n generalizing e with
  | zero =>
    refine Elem.ext' (fun i => ?_) rfl
    simp [lastDescendant, lastDesc]
  | succ n ih =>
    have hv := valid_child h he (by omega) (2 ^ d - 1)
    have := ih hv (by simp only [child]; omega)
    rw [lastDesc]
    rw [show (treeOf d M h).child e ((treeOf d M h).nc e - 1) = child M e (2 ^ d - 1) from rfl, ← this]
    refine Elem.ext' (fun i => ?_) (by simp only [lastDescendant, child]; omega)
    apply BitVec.eq_of_getLsbD_eq
    intro k hk
    simp only [lastDescendant, BitVec.getLsbD_or]
    rw [child_bit h he (by omega), show (child M e (2 ^ d - 1)).level = e.level + 1 from rfl,
      sub_len_bit (h i.pos) (by omega) hn, sub_len_bit (h i.pos) (by omega) (by omega),
      Nat.testBit_two_pow_sub_one]
    cases (e.coords i).getLsbD k with
    | true => simp
    | false =>
      rw [Bool.eq_iff_iff]
      simp
      omega

/-! ### Successor -/

theorem successor_spec (h : 0 < d → M < 32) : ∀ (n : Nat) (e : Elem d), e.level = n → Valid M e →
    lid (T := treeOf d M h) e e.level + 1 < (treeOf d M h).count (root d) e.level →
    ∃ s, successor M e = some s ∧ Valid M s ∧ s.level = e.level ∧
      lid (T := treeOf d M h) s e.level = lid (T := treeOf d M h) e e.level + 1 := by
  intro n
  induction n with
  | zero =>
    intro e hn he hlt
    exfalso
    rw [count_eq_pow, hn] at hlt
    simp [root] at hlt
  | succ n ih =>
    intro e hn he hlt
    have hid := childId_lt h (M := M) (e := e) (by omega)
    have hge : 0 ≤ childId M e := by rw [childId, if_neg (by omega)]; exact Int.natCast_nonneg _
    have hcast : ((childId M e).toNat : Int) = childId M e := Int.toNat_of_nonneg hge
    have hsib : numSiblings e = 2 ^ d := by rw [numSiblings, if_neg (by omega)]; rfl
    have hpos := Nat.two_pow_pos d
    rw [successor, assertO_true ⟨hge, by rw [hsib]; omega⟩]
    simp only [Option.bind_eq_bind, Option.bind_some]
    split
    · rename_i hlast
      rw [hsib] at hlast
      have hlast' : (treeOf d M h).childId e + 1 = (treeOf d M h).nc ((treeOf d M h).parent e) := by
        show (childId M e).toNat + 1 = 2 ^ d
        omega
      have hpl : (parent M e).level = n := by simp only [parent]; omega
      obtain ⟨s, hs, vs, ls, hlid⟩ := ih (parent M e) hpl (valid_parent h he (by omega))
        (lid_last (T := treeOf d M h) he (by show 0 < e.level; omega) hlt hlast')
      rw [hs]
      have := lid_next_last (T := treeOf d M h) (s := s) he (by show 0 < e.level; omega) hlast' vs ls hlid
      exact ⟨_, rfl, this.1, this.2.1, this.2.2⟩
    · rename_i hlast
      rw [hsib] at hlast
      have := lid_next_sibling (T := treeOf d M h) he (by show 0 < e.level; omega)
        (by show (childId M e).toNat + 1 < 2 ^ d; omega)
      exact ⟨_, rfl, this.1, this.2.1, this.2.2⟩

/-! ### Setting an element by its linear id -/

theorem childSum_eq (h : 0 < d → M < 32) (e : Elem d) {L : Nat} (hl : e.level < L) (k : Nat) :
    ((List.range k).map (fun j => (treeOf d M h).count ((treeOf d M h).child e j) L)).sum =
      k * 2 ^ (d * (L - e.level - 1)) := by
  have : (List.range k).map (fun j => (treeOf d M h).count ((treeOf d M h).child e j) L) =
      List.replicate k (2 ^ (d * (L - e.level - 1))) := by
    rw [List.eq_replicate_iff]
    refine ⟨by simp, ?_⟩
    intro b hb
    rw [List.mem_map] at hb
    obtain ⟨i, _, rfl⟩ := hb
    have hcl : ((treeOf d M h).child e i).level = e.level + 1 := rfl
    rw [count_eq_pow, hcl, if_neg (by omega), show L - (e.level + 1) = L - e.level - 1 by omega]
  rw [this, List.sum_replicate_nat]

theorem findChild_spec (h : 0 < d → M < 32) (hM : d * M < 64) {e : Elem d} {L : Nat} (hl : e.level < L)
    (hL : L ≤ M) {id : BitVec 64} (hid : id.toNat < 2 ^ (d * (L - e.level))) :
    ∃ c, c < 2 ^ d ∧ c * 2 ^ (d * (L - e.level - 1)) ≤ id.toNat ∧
      id.toNat < (c + 1) * 2 ^ (d * (L - e.level - 1)) ∧
      findChild M L e id = some (c, BitVec.ofNat 64 (c * 2 ^ (d * (L - e.level - 1)))) := by
  have hdl : d * L < 64 := lt_of_le_of_lt (Nat.mul_le_mul_left d hL) hM
  generalize hq : 2 ^ (d * (L - e.level - 1)) = q
  have hqpos : 0 < q := hq ▸ Nat.two_pow_pos _
  have hQ : 2 ^ (d * (L - e.level)) = 2 ^ d * q := by
    rw [← hq, ← pow_add]; congr 1
    obtain ⟨m, hm⟩ : ∃ m, L - e.level = m + 1 := ⟨L - e.level - 1, by omega⟩
    rw [hm, Nat.add_sub_cancel]; ring
  have hcap : 2 ^ (d * (L - e.level)) ≤ 2 ^ 63 := Nat.pow_le_pow_right (by omega)
    (by have : d * (L - e.level) ≤ d * L := Nat.mul_le_mul_left d (by omega)
        omega)
  have hstep : ∀ k, BitVec.ofNat 64 (k * q) + countLeaves (child M e k) L = BitVec.ofNat 64 ((k + 1) * q) := by
    intro k
    have hcl : (child M e k).level = e.level + 1 := rfl
    rw [countLeaves_eq h _, count_eq_pow, hcl, if_neg (by omega),
      show L - (e.level + 1) = L - e.level - 1 by omega, hq, ← BitVec.ofNat_add]
    congr 1; ring
  have hnat : ∀ k, k ≤ 2 ^ d → (BitVec.ofNat 64 (k * q)).toNat = k * q := by
    intro k hk
    rw [BitVec.toNat_ofNat]
    apply Nat.mod_eq_of_lt
    have : k * q ≤ 2 ^ d * q := Nat.mul_le_mul_right q hk
    have : (2 : Nat) ^ 63 < 2 ^ 64 := by norm_num
    omega
  let step (s : Nat × BitVec 64 × BitVec 64) : Option (Nat × BitVec 64 × BitVec 64) := do
    assertO (s.1 < numChildren d)
    some (s.1 + 1, s.2.2, s.2.2 + countLeaves (child M e s.1) L)
  have hstep' : ∀ k b, k < 2 ^ d → step (k, b, BitVec.ofNat 64 (k * q)) =
      some (k + 1, BitVec.ofNat 64 (k * q), BitVec.ofNat 64 ((k + 1) * q)) := by
    intro k b hk
    simp only [step]
    rw [assertO_true (show k < numChildren d from hk), hstep]
    rfl
  obtain ⟨r, hr, hI, hc⟩ := whileO_spec (cond := fun s => some (decide (s.2.2 ≤ id))) (body := step)
    (fun s => ∃ k, k < 2 ^ d ∧ k * q ≤ id.toNat ∧
      s = (k + 1, BitVec.ofNat 64 (k * q), BitVec.ofNat 64 ((k + 1) * q)))
    (fun s => 2 ^ d - s.1) (by
      rintro s ⟨k, hk, hkid, rfl⟩
      by_cases hcond : BitVec.ofNat 64 ((k + 1) * q) ≤ id
      · right
        rw [BitVec.le_def, hnat _ (by omega)] at hcond
        have hk1 : k + 1 < 2 ^ d := by
          by_contra hcon
          have : k + 1 = 2 ^ d := by omega
          rw [this, ← hQ] at hcond
          omega
        refine ⟨by simp [BitVec.le_def, hnat (k + 1) (by omega), hcond], _, hstep' (k + 1) _ hk1,
          ⟨k + 1, hk1, hcond, rfl⟩, ?_⟩
        simp only
        omega
      · left
        simp [hcond]) (0 + 1, BitVec.ofNat 64 (0 * q), BitVec.ofNat 64 ((0 + 1) * q))
    ⟨0, Nat.two_pow_pos d, by omega, rfl⟩
  obtain ⟨k, hk, hkid, rfl⟩ := hI
  refine ⟨k, hk, hkid, ?_, ?_⟩
  · simp only [Option.some.injEq, decide_eq_false_iff_not, BitVec.le_def, hnat (k + 1) (by omega)] at hc
    omega
  · have h0 : step (0, 0, 0) = some (0 + 1, BitVec.ofNat 64 (0 * q), BitVec.ofNat 64 ((0 + 1) * q)) := by
      have := hstep' 0 0 (Nat.two_pow_pos d)
      rw [← this]
      simp
    show (step (0, 0, 0)).bind (fun s0 => (whileO (fun s => some (decide (s.2.2 ≤ id))) step s0).bind
      (fun s => some (s.1 - 1, s.2.1))) = _
    rw [h0, Option.bind_some, hr]
    simp

theorem setLinearId_spec (h : 0 < d → M < 32) (hM : d * M < 64) {L : Nat} (hL : L ≤ M) {id : Nat}
    (hid : id < (treeOf d M h).count (root d) L) :
    ∃ x, setLinearId d M L (BitVec.ofNat 64 id) = some x ∧ Valid M x ∧ x.level = L ∧
      lid (T := treeOf d M h) x L = id := by
  have hdl : d * L < 64 := lt_of_le_of_lt (Nat.mul_le_mul_left d hL) hM
  have hcap : 2 ^ (d * L) ≤ 2 ^ 63 := Nat.pow_le_pow_right (by omega) (by omega)
  have h64 : (2 : Nat) ^ 63 < 2 ^ 64 := by norm_num
  have hid' : id < 2 ^ (d * L) := by
    rw [count_eq_pow] at hid
    simpa [root] using hid
  have hidn : (BitVec.ofNat 64 id).toNat = id := by
    rw [BitVec.toNat_ofNat]; exact Nat.mod_eq_of_lt (by omega)
  unfold setLinearId
  by_cases h0 : L = 0
  · subst h0
    simp only [Nat.mul_zero, pow_zero] at hid'
    have : id = 0 := by omega
    subst this
    refine ⟨root d, by simp, valid_root, rfl, lid_root (T := treeOf d M h) 0⟩
  · rw [if_neg h0]
    have hassert : BitVec.ofNat 64 id < countLeaves (root d) L := by
      rw [BitVec.lt_def, hidn, countLeaves_eq h _, count_eq_pow, BitVec.toNat_ofNat, Nat.mod_eq_of_lt]
      · simpa [root] using hid'
      · simp only [root, Nat.not_lt_zero, if_false, Nat.sub_zero]; omega
    rw [assertO_true hassert]
    simp only [Option.bind_eq_bind, Option.bind_some]
    obtain ⟨r, hr, ⟨I1, I2, I3, I4⟩, hc⟩ := whileO_spec
      (cond := fun (s : Elem d × BitVec 64) => some (decide (s.1.level < L)))
      (body := fun s =>
        if s.2 = 0 then some (firstDescendant s.1 L, s.2)
        else (findChild M L s.1 s.2).bind (fun c => some (child M s.1 c.1, s.2 - c.2)))
      (fun s => Valid M s.1 ∧ s.1.level ≤ L ∧ s.2.toNat < 2 ^ (d * (L - s.1.level)) ∧
        lid (T := treeOf d M h) s.1 L + s.2.toNat = id)
      (fun s => L - s.1.level) (by
        rintro ⟨e, i⟩ ⟨I1, I2, I3, I4⟩
        simp only at I1 I2 I3 I4 ⊢
        by_cases hlt : e.level < L
        · right
          refine ⟨by simp [hlt], ?_⟩
          by_cases hi : i = 0
          · rw [if_pos hi]
            have hfd := firstDescendant_eq h I1 (n := L - e.level) (by omega)
            rw [show e.level + (L - e.level) = L by omega] at hfd
            have hs := firstDesc_spec (T := treeOf d M h) (e := e) I1 (n := L - e.level)
              (by show e.level + (L - e.level) ≤ M; omega)
            refine ⟨_, rfl, ⟨?_, ?_, ?_, ?_⟩, ?_⟩
            · show Valid M (firstDescendant e L)
              rw [hfd]; exact hs.1.valid I1
            · simp [firstDescendant]
            · simp [firstDescendant, hi]
            · show lid (T := treeOf d M h) (firstDescendant e L) L + _ = _
              rw [hfd, hs.2.2]; exact I4
            · simp only [firstDescendant]; omega
          · rw [if_neg hi]
            obtain ⟨c, hc, hc1, hc2, hf⟩ := findChild_spec h hM hlt hL I3
            rw [hf]
            have hcl : (child M e c).level = e.level + 1 := rfl
            have hq : c * 2 ^ (d * (L - e.level - 1)) < 2 ^ 64 := by
              have : i.toNat < 2 ^ 64 := i.isLt
              omega
            have hsub : (i - BitVec.ofNat 64 (c * 2 ^ (d * (L - e.level - 1)))).toNat =
                i.toNat - c * 2 ^ (d * (L - e.level - 1)) := by
              rw [BitVec.toNat_sub_of_le]
              · rw [BitVec.toNat_ofNat, Nat.mod_eq_of_lt hq]
              · rw [BitVec.le_def, BitVec.toNat_ofNat, Nat.mod_eq_of_lt hq]; exact hc1
            refine ⟨_, rfl, ⟨valid_child h I1 (by omega) c, ?_, ?_, ?_⟩, ?_⟩
            · simp only [hcl]; omega
            · simp only [hcl, hsub]
              rw [show L - (e.level + 1) = L - e.level - 1 by omega]
              rw [Nat.add_mul, Nat.one_mul] at hc2
              omega
            · have h1 := lid_child (T := treeOf d M h) (e := e) I1 (show e.level < M by omega) (i := c) hc L
              rw [childSum_eq h e hlt] at h1
              have h2 : lid (T := treeOf d M h) (child M e c) L =
                  lid (T := treeOf d M h) e L + c * 2 ^ (d * (L - e.level - 1)) := h1
              simp only [hsub, h2]
              omega
            · simp only [hcl]; omega
        · left
          simp [hlt]) (root d, BitVec.ofNat 64 id) (by
        refine ⟨valid_root, by simp [root], ?_, ?_⟩
        · simp only [root, Nat.sub_zero, hidn]; exact hid'
        · simp only [hidn]
          have := lid_root (T := treeOf d M h) L
          rw [show (treeOf d M h).root = root d from rfl] at this
          omega)
    have hlev : r.1.level = L := by
      simp only [Option.some.injEq, decide_eq_false_iff_not] at hc
      omega
    have hz : r.2.toNat = 0 := by
      rw [hlev] at I3; simp at I3; simpa using I3
    refine ⟨r.1, ?_, I1, hlev, by omega⟩
    have hz' : r.2 = 0 := BitVec.eq_of_toNat_eq (by simpa using hz)
    have hfin : (whileO (fun (s : Elem d × BitVec 64) => some (decide (s.1.level < L)))
      (fun s =>
        if s.2 = 0 then some (firstDescendant s.1 L, s.2)
        else (findChild M L s.1 s.2).bind (fun c => some (child M s.1 c.1, s.2 - c.2)))
        (root d, BitVec.ofNat 64 id)).bind (fun s => (assertO (s.2 = 0)).bind (fun _ => some s.1)) = some r.1 := by
      rw [hr, Option.bind_some, assertO_true hz', Option.bind_some]
    exact hfin

/-! ### Comparison, ancestors, families -/

theorem isEqual_iff (e f : Elem d) : isEqual e f = true ↔ e = f := by
  rw [isEqual]
  constructor
  · intro h
    split at h
    · simp at h
    · rename_i hl
      simp only [ne_eq, Decidable.not_not] at hl
      refine Elem.ext' (fun i => ?_) hl
      rw [List.all_eq_true] at h
      simpa using h i (List.mem_finRange i)
  · rintro rfl
    simp

theorem compare_spec (h : 0 < d → M < 32) (hM : d * M < 64) : (treeOf d M h).CompareSpec (compare M) := by
  apply compareSpec_of
  intro x y hx hy
  have h1 : x.level ≤ M := hx.1
  have h2 : y.level ≤ M := hy.1
  have e1 := linearId_eq h hM hx (L := max x.level y.level) (by omega)
  have e2 := linearId_eq h hM hy (L := max x.level y.level) (by omega)
  rw [if_neg (by omega)] at e1 e2
  show (compare M x y < 0 ↔ lid (T := treeOf d M h) x (max x.level y.level) <
    lid (T := treeOf d M h) y (max x.level y.level) ∨ (lid (T := treeOf d M h) x (max x.level y.level) =
    lid (T := treeOf d M h) y (max x.level y.level) ∧ x.level < y.level)) ∧ (compare M x y = 0 ↔
    lid (T := treeOf d M h) x (max x.level y.level) = lid (T := treeOf d M h) y (max x.level y.level) ∧
    x.level = y.level)
  rw [← e1, ← e2]
  simp only [compare]
  have heq : linearId M x (max x.level y.level) = linearId M y (max x.level y.level) ↔
      (linearId M x (max x.level y.level)).toNat = (linearId M y (max x.level y.level)).toNat :=
    ⟨fun h => by rw [h], BitVec.eq_of_toNat_eq⟩
  by_cases hid : linearId M x (max x.level y.level) = linearId M y (max x.level y.level)
  · rw [if_pos hid]
    have := heq.1 hid
    by_cases hl : x.level = y.level
    · rw [if_pos hl]; omega
    · rw [if_neg hl]; omega
  · rw [if_neg hid]
    have hne : (linearId M x (max x.level y.level)).toNat ≠ (linearId M y (max x.level y.level)).toNat :=
      fun hc => hid (heq.2 hc)
    by_cases hlt : linearId M x (max x.level y.level) < linearId M y (max x.level y.level)
    · rw [if_pos hlt]
      rw [BitVec.lt_def] at hlt
      omega
    · rw [if_neg hlt]
      rw [BitVec.lt_def] at hlt
      omega

theorem foldlM_all {α : Type} (l : List α) (g : α → Option Bool) (P : α → Prop) [DecidablePred P]
    (hg : ∀ i ∈ l, g i = some (decide (P i))) (b : Bool) :
    l.foldlM (fun ok i => if ok then g i else some false) b = some (b && decide (∀ i ∈ l, P i)) := by
  induction l generalizing b with
  | nil => simp
  | cons x l ih =>
    rw [List.foldlM_cons]
    cases b with
    | false =>
      simp only [Bool.false_eq_true, if_false, Option.bind_eq_bind, Option.bind_some]
      rw [ih (fun i hi => hg i (by simp [hi]))]
      simp
    | true =>
      simp only [if_true, Option.bind_eq_bind]
      rw [hg x (by simp), Option.bind_some, ih (fun i hi => hg i (by simp [hi]))]
      simp [Bool.decide_and]

theorem areFamily_spec (h : 0 < d → M < 32) (hM : d * M < 64) (fam : List (Elem d)) (hlen : fam.length = 2 ^ d)
    (hv : ∀ x ∈ fam, Valid M x) (h0 : ∀ x ∈ fam, 0 < x.level) :
    ∃ b, areFamily M fam = some b ∧ (b = true ↔ ∃ p, (treeOf d M h).IsFamilyOf fam p) := by
  have hpos := Nat.two_pow_pos d
  have hget : ∀ i (hi : i < 2 ^ d), fam[i]? = some (fam[i]'(by omega)) := fun i hi =>
    List.getElem?_eq_getElem (by omega)
  have hmem : ∀ i (hi : i < 2 ^ d), fam[i]'(by omega) ∈ fam := fun i hi => List.getElem_mem _
  set f0 := fam[0]'(by omega) with hf0
  have hv0 : Valid M f0 := hv _ (hmem 0 hpos)
  have hl0 : 0 < f0.level := h0 _ (hmem 0 hpos)
  have hp := valid_parent h hv0 hl0
  have hpl : (parent M f0).level < M := by have := hv0.1; simp only [parent]; omega
  have hcmp := compare_spec h hM
  classical
  let P : Nat → Prop := fun i => fam[i]? = some (child M (parent M f0) i)
  have hfold := foldlM_all (List.range (2 ^ d)) (fun i => do
      let f ← fam[i]?
      assertO (0 < f.level)
      if compare M (parent M f0) (parent M f) ≠ 0 then some false
      else if compare M f (child M (parent M f0) i) ≠ 0 then some false
      else some true) P (by
    intro i hi
    rw [List.mem_range] at hi
    have hvi := hv _ (hmem i hi)
    have hli := h0 _ (hmem i hi)
    have c1 := (hcmp (parent M f0) (parent M fam[i]) hp (valid_parent h hvi hli)).2.1
    have c2 := (hcmp fam[i] (child M (parent M f0) i) hvi (valid_child h hp hpl i)).2.1
    simp only [P, hget i hi, Option.bind_eq_bind, Option.bind_some, assertO_true hli, Option.some.injEq]
    by_cases e1 : compare M (parent M f0) (parent M fam[i]) = 0
    · rw [if_neg (by simpa using e1)]
      by_cases e2 : compare M fam[i] (child M (parent M f0) i) = 0
      · rw [if_neg (by simpa using e2)]
        simp [c2.1 e2]
      · rw [if_pos e2]
        have : ¬ fam[i] = child M (parent M f0) i := fun hc => e2 (c2.2 hc)
        simp [this]
    · rw [if_pos e1]
      have : ¬ fam[i] = child M (parent M f0) i := by
        intro hc
        refine e1 (c1.2 ?_)
        rw [hc, parent_child h hp hpl]
      simp [this]) true
  refine ⟨true && decide (∀ i ∈ List.range (2 ^ d), P i), ?_, ?_⟩
  · unfold areFamily
    rw [hget 0 hpos]
    simp only [Option.bind_eq_bind, Option.bind_some] at hfold ⊢
    rw [← hf0, assertO_true hl0, Option.bind_some]
    refine hfold.trans ?_
    congr
  · simp only [Bool.true_and, decide_eq_true_eq, List.mem_range, P]
    constructor
    · intro hall
      refine ⟨parent M f0, hp, hpl, ?_⟩
      apply List.ext_getElem?
      intro i
      show fam[i]? = ((List.range (2 ^ d)).map (child M (parent M f0)))[i]?
      rcases Nat.lt_or_ge i (2 ^ d) with hi | hi
      · rw [hall i hi]
        simp [hi]
      · rw [List.getElem?_eq_none (by omega), List.getElem?_eq_none (by simpa using hi)]
    · rintro ⟨p, vp, hpl', hfam⟩
      have hfam' : ∀ i, i < 2 ^ d → fam[i]? = some (child M p i) := by
        intro i hi
        have : fam[i]? = ((List.range (2 ^ d)).map (child M p))[i]? := by
          conv_lhs => rw [hfam]
          rfl
        rw [this]; simp [hi]
      have hpp : parent M f0 = p := by
        have := hfam' 0 hpos
        rw [hget 0 hpos] at this
        rw [hf0, Option.some.inj this, parent_child h vp hpl']
      intro i hi
      rw [hpp]
      exact hfam' i hi

theorem isAncestor_spec (h : 0 < d → M < 32) : (treeOf d M h).IsAncestorSpec (isAncestor M) := by
  intro a x ha hx
  rw [desc_iff ha hx, isAncestor]
  show _ ↔ a.level ≤ x.level ∧ _
  split
  · simp; omega
  · rename_i hl
    rw [isEqual_iff, ancestor_eq_anc h hx (by omega)]
    exact ⟨fun he => ⟨by omega, he⟩, fun he => he.2⟩

/-! ### Nearest common ancestor -/

theorem foldl_or_bv {α : Type} (l : List α) (v : α → BitVec 32) (a : BitVec 32) (k : Nat) :
    (l.foldl (fun x i => x ||| v i) a).getLsbD k = true ↔
      a.getLsbD k = true ∨ ∃ i ∈ l, (v i).getLsbD k = true := by
  induction l generalizing a with
  | nil => simp
  | cons x l ih =>
    rw [List.foldl_cons, ih, BitVec.getLsbD_or]
    simp [or_assoc]

theorem activeBits_spec (x : BitVec 32) :
    (∀ k, x.getLsbD k = true → k < activeBits x) ∧
    (0 < activeBits x → x.getLsbD (activeBits x - 1) = true) := by
  rw [activeBits]
  split
  · rename_i h0
    subst h0
    simp
  · rename_i h0
    have h1 : x.toNat ≠ 0 := fun hc => h0 (BitVec.eq_of_toNat_eq (by simpa using hc))
    refine ⟨fun k hk => ?_, fun _ => ?_⟩
    · rw [← BitVec.testBit_toNat] at hk
      have := Nat.ge_two_pow_of_testBit hk
      have := (Nat.le_log2 h1).2 this
      omega
    · rw [Nat.add_sub_cancel, ← BitVec.testBit_toNat]
      rw [Nat.testBit_log2]
      simpa using h1

theorem nca_spec (h : 0 < d → M < 32) : (treeOf d M h).NcaSpec (nca M) := by
  intro x y hx hy
  have hx' : Valid M x := hx
  have hy' : Valid M y := hy
  have bx := (valid_iff_bits.1 hx').2
  have by' := (valid_iff_bits.1 hy').2
  have lx := hx'.1
  have ly := hy'.1
  let w := (List.finRange d).foldl (fun z i => z ||| (x.coords i ^^^ y.coords i)) 0
  have hw : ∀ k, w.getLsbD k = true ↔ ∃ i, ((x.coords i) ^^^ (y.coords i)).getLsbD k = true := by
    intro k
    rw [foldl_or_bv]
    simp
  obtain ⟨ha1, ha2⟩ := activeBits_spec w
  have hle : activeBits w ≤ M := by
    by_contra hc
    have h1 := (hw _).1 (ha2 (by omega))
    obtain ⟨i, hi⟩ := h1
    rw [BitVec.getLsbD_xor] at hi
    cases hbx : (x.coords i).getLsbD (activeBits w - 1) with
    | true => have := bx i _ hbx; omega
    | false =>
      rw [hbx] at hi
      have := by' i _ (by simpa using hi)
      omega
  let m := min (M - activeBits w) (min x.level y.level)
  have hagree : ∀ i k, activeBits w ≤ k → (x.coords i).getLsbD k = (y.coords i).getLsbD k := by
    intro i k hk
    by_contra hne
    have : w.getLsbD k = true := (hw k).2 ⟨i, by rw [BitVec.getLsbD_xor]; simpa using hne⟩
    have := ha1 k this
    omega
  have hanc : (treeOf d M h).anc x m = (treeOf d M h).anc y m := by
    rw [← ancestor_eq_anc h hx' (by omega), ← ancestor_eq_anc h hy' (by omega)]
    refine Elem.ext' (fun i => ?_) (by rw [ancestor_level, ancestor_level])
    apply BitVec.eq_of_getLsbD_eq
    intro k hk
    rw [ancestor_bit hx' (by omega) h, ancestor_bit hy' (by omega) h]
    by_cases hk2 : M - m ≤ k
    · rw [hagree i k (by omega)]
    · simp [hk2]
  refine ⟨(treeOf d M h).anc x m, ?_, valid_anc hx m, ?_⟩
  · rw [nca, ncaLevel]
    simp only [Option.bind_eq_bind]
    rw [assertO_true hle]
    simp only [Option.bind_some]
    rw [ancestor_eq_anc h hx' (by omega)]
  · refine isNca_anc hx hy (by show m ≤ x.level; omega) (by show m ≤ y.level; omega) hanc ?_
    intro h1 h2 hc
    have h1' : m < x.level := h1
    have h2' : m < y.level := h2
    rw [← ancestor_eq_anc h hx' h1', ← ancestor_eq_anc h hy' h2'] at hc
    have hpos : 0 < activeBits w := by omega
    obtain ⟨i, hi⟩ := (hw _).1 (ha2 hpos)
    have hbit := congrArg (fun e => (e.coords i).getLsbD (activeBits w - 1)) hc
    rw [ancestor_bit hx' h1' h, ancestor_bit hy' h2' h] at hbit
    have hdec : M - (m + 1) ≤ activeBits w - 1 := by omega
    rw [BitVec.getLsbD_xor] at hi
    simp [hdec] at hbit
    simp [hbit] at hi

end T8.Standalone
