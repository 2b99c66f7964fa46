import Verif.Spec.TreePartition
import Verif.Model.CmeshOffset
import Mathlib.Tactic.Linarith
import Mathlib.Data.Int.Order.Basic
import Mathlib.Data.Int.LeastGreatest

namespace T8.Spec.TreePartition
variable {P K : Int} (R : TreePartition P K)

theorem last_mono_succ (p : Int) (h0 : 0 ≤ p) (h1 : p + 1 < P) : R.last p ≤ R.last (p + 1) := by
  have h := R.next p h0 h1
  have hl := R.len (p + 1) (by omega) h1
  omega

theorem last_mono {p q : Int} (h0 : 0 ≤ p) (hpq : p ≤ q) (h1 : q < P) : R.last p ≤ R.last q := by
  obtain ⟨n, rfl⟩ : ∃ n : Nat, q = p + n := ⟨(q - p).toNat, by omega⟩
  clear hpq
  induction n with
  | zero => simp
  | succ n ih =>
    have := ih (by push_cast at h1; omega)
    have h2 := R.last_mono_succ (p + n) (by omega) (by push_cast at h1; omega)
    push_cast
    rw [← add_assoc]; omega

/-- The first tree of a rank is at or after the last tree of any smaller rank. -/
theorem last_le_first {p q : Int} (h0 : 0 ≤ p) (hpq : p < q) (h1 : q < P) : R.last p ≤ R.first q := by
  have h := R.last_mono h0 (q := q - 1) (by omega) (by omega)
  have := R.next (q - 1) (by omega) (by omega)
  rw [sub_add_cancel] at this
  omega

theorem first_le_last_prev {q : Int} (h0 : 0 < q) (h1 : q < P) : R.first q ≤ R.last (q - 1) + 1 := by
  have := R.next (q - 1) (by omega) (by omega)
  rw [sub_add_cancel] at this
  omega

theorem last_le_top {p : Int} (h0 : 0 ≤ p) (h1 : p < P) : R.last p ≤ K - 1 := by
  rw [← R.last_top]; exact R.last_mono h0 (by omega) (by omega)

theorem owns_lt {p t : Int} (h : R.Owns p t) : 0 ≤ t ∧ t < K := by
  obtain ⟨h0, h1, h2, h3⟩ := h
  have := R.nonneg p h0 h1
  have := R.last_le_top h0 h1
  omega

/-- The smallest rank whose last tree is at least `t` holds `t`. -/
theorem exists_first_owner' {t q : Int} (ht0 : 0 ≤ t) (hq0 : 0 ≤ q) (hq : q < P) (htq : t ≤ R.last q) :
    ∃ p, R.Owns p t ∧ p ≤ q ∧ (∀ r, 0 ≤ r → r < P → t ≤ R.last r → p ≤ r) := by
  obtain ⟨p, ⟨hp0, hp1, hp2⟩, hmin⟩ := Int.exists_least_of_bdd
    (P := fun p => 0 ≤ p ∧ p < P ∧ t ≤ R.last p) ⟨0, fun z hz => hz.1⟩ ⟨q, hq0, hq, htq⟩
  refine ⟨p, ⟨hp0, hp1, ?_, hp2⟩, hmin q ⟨hq0, hq, htq⟩, fun r h0 h1 h2 => hmin r ⟨h0, h1, h2⟩⟩
  rcases eq_or_lt_of_le hp0 with h | h
  · rw [← h, R.first_zero]; exact ht0
  · have h1 := R.first_le_last_prev h hp1
    by_contra hc
    have : p ≤ p - 1 := hmin (p - 1) ⟨by omega, by omega, by omega⟩
    omega

theorem exists_first_owner {t : Int} (ht0 : 0 ≤ t) (ht : t < K) :
    ∃ p, R.Owns p t ∧ (∀ r, 0 ≤ r → r < P → t ≤ R.last r → p ≤ r) := by
  have := R.pos
  obtain ⟨p, h, _, h'⟩ := R.exists_first_owner' (q := P - 1) ht0 (by omega) (by omega)
    (by rw [R.last_top]; omega)
  exact ⟨p, h, h'⟩

theorem sharesFirst_iff {p : Int} (h0 : 0 ≤ p) (h1 : p < P) :
    R.SharesFirst p ↔ 0 < p ∧ R.first p = R.last (p - 1) ∧ R.first p ≤ R.last p := by
  constructor
  · rintro ⟨⟨_, _, _, h2⟩, q, hq, hq0, hq1, hq2, hq3⟩
    have h3 := R.last_le_first hq0 hq h1
    have h4 := R.last_mono hq0 (q := p - 1) (by omega) (by omega)
    have h5 := R.last_le_first (p := p - 1) (by omega) (by omega) h1
    exact ⟨by omega, by omega, h2⟩
  · rintro ⟨h2, h3, h4⟩
    refine ⟨⟨h0, h1, le_rfl, h4⟩, ?_⟩
    obtain ⟨q, hq, hqp, _⟩ := R.exists_first_owner' (t := R.first p) (q := p - 1) (R.nonneg p h0 h1)
      (by omega) (by omega) (by omega)
    exact ⟨q, by omega, hq⟩

theorem first_eq_of_not_shares {p : Int} (h0 : 0 < p) (h1 : p < P) (h : ¬ R.SharesFirst p) :
    R.first p = R.last (p - 1) + 1 := by
  rw [R.sharesFirst_iff h0.le h1] at h
  have := R.next (p - 1) (by omega) (by omega)
  rw [sub_add_cancel] at this
  rcases this with h' | h'
  · exact h'
  · exact absurd ⟨h0, h'.1, h'.2⟩ h

theorem empty_iff {p : Int} (h0 : 0 ≤ p) (h1 : p < P) : R.Empty p ↔ R.last p < R.first p := by
  unfold Empty Owns
  constructor
  · intro h
    by_contra hc
    exact h (R.first p) ⟨h0, h1, le_rfl, by omega⟩
  · intro h t ht
    omega

end T8.Spec.TreePartition

namespace T8.Offset
open T8.Spec
variable {P K : Int} {R : TreePartition P K} {off : List Int}

theorem rd_entry (h : R.Encodes off) {p : Int} (h0 : 0 ≤ p) (h1 : p < P) :
    (R.SharesFirst p ∧ rd off p = some (- R.first p - 1)) ∨
    (¬ R.SharesFirst p ∧ rd off p = some (R.first p)) := by
  have := h.2.1 p h0 h1
  unfold rd
  rw [if_neg (by omega), this]
  by_cases hs : R.SharesFirst p <;> simp [hs]

theorem rd_top (h : R.Encodes off) : rd off P = some K := by
  have := R.pos
  unfold rd
  rw [if_neg (by omega), h.2.2]

/-- The sign of an entry is the shared flag. -/
theorem rd_sign (h : R.Encodes off) {p : Int} (h0 : 0 ≤ p) (h1 : p < P) :
    ∃ e, rd off p = some e ∧ (e < 0 ↔ R.SharesFirst p) ∧
      |e| + (if e < 0 then -1 else 0) = R.first p := by
  have hn := R.nonneg p h0 h1
  rcases rd_entry h h0 h1 with ⟨hs, he⟩ | ⟨hs, he⟩
  · refine ⟨_, he, ⟨fun _ => hs, fun _ => by omega⟩, ?_⟩
    rw [if_pos (by omega), abs_of_neg (by omega)]; omega
  · refine ⟨_, he, ⟨fun h => by omega, fun h => absurd h hs⟩, ?_⟩
    rw [if_neg (by omega), abs_of_nonneg hn]; omega

theorem rd_abs_next (h : R.Encodes off) {p : Int} (h0 : -1 ≤ p) (h1 : p < P) :
    ∃ e, rd off (p + 1) = some e ∧ (0 ≤ p → |e| = R.last p + 1) ∧ (p = -1 → |e| = 0) := by
  have hP := R.pos
  rcases eq_or_ne (p + 1) P with hp | hp
  · refine ⟨K, by rw [hp]; exact rd_top h, fun h0 => ?_, fun h => by omega⟩
    have : p = P - 1 := by omega
    subst this
    have := R.len (P - 1) h0 h1
    have := R.nonneg (P - 1) h0 h1
    rw [R.last_top] at *
    rw [abs_of_nonneg (by omega)]; omega
  · rcases rd_entry h (p := p + 1) (by omega) (by omega) with ⟨hs, he⟩ | ⟨hs, he⟩
    · rw [R.sharesFirst_iff (by omega) (by omega), add_sub_cancel_right] at hs
      have := R.nonneg (p + 1) (by omega) (by omega)
      refine ⟨_, he, fun _ => ?_, fun h => by omega⟩
      rw [abs_of_neg (by omega)]; omega
    · have := R.nonneg (p + 1) (by omega) (by omega)
      refine ⟨_, he, fun h0 => ?_, fun h => ?_⟩
      · have := R.first_eq_of_not_shares (p := p + 1) (by omega) (by omega) hs
        rw [add_sub_cancel_right] at this
        rw [abs_of_nonneg (by omega)]; omega
      · subst h
        have := R.first_zero
        norm_num [this]

theorem first_eq (h : R.Encodes off) {p : Int} (h0 : 0 ≤ p) (h1 : p < P) :
    first p off = some (R.first p) := by
  obtain ⟨e, he, _, h2⟩ := rd_sign h h0 h1
  simp [first, h0, he, h2]

theorem last_eq (h : R.Encodes off) {p : Int} (h0 : 0 ≤ p) (h1 : p < P) :
    last p off = some (R.last p) := by
  obtain ⟨e, he, h2, _⟩ := rd_abs_next h (p := p) (by omega) h1
  simp [last, show -1 ≤ p by omega, he, h2 h0]

theorem last_neg_one (h : R.Encodes off) : last (-1) off = some (-1) := by
  have hP := R.pos
  obtain ⟨e, he, _, h2⟩ := rd_abs_next h (p := -1) (by omega) (by omega)
  have := h2 rfl
  rw [last, assertO_true (by omega), he]
  simp [this]

theorem numTrees_eq (h : R.Encodes off) {p : Int} (h0 : 0 ≤ p) (h1 : p < P) :
    numTrees p off = some (R.last p + 1 - R.first p) := by
  obtain ⟨e, he, h2, _⟩ := rd_abs_next h (p := p) (by omega) h1
  have := R.len p h0 h1
  simp [numTrees, h0, he, h2 h0, first_eq h h0 h1, this]

theorem empty_eq (h : R.Encodes off) {p : Int} (h0 : 0 ≤ p) (h1 : p < P) :
    empty p off = some (decide (R.last p < R.first p)) := by
  have : decide (R.last p + 1 - R.first p ≤ 0) = decide (R.last p < R.first p) := by
    rw [decide_eq_decide]; omega
  simp [empty, h0, numTrees_eq h h0 h1, ← this]

theorem inRange_eq (h : R.Encodes off) {p : Int} (t : Int) (h0 : 0 ≤ p) (h1 : p < P) :
    inRange t p off = some (decide (R.first p ≤ t ∧ t ≤ R.last p)) := by
  simp only [inRange, first_eq h h0 h1, last_eq h h0 h1, Option.bind_eq_bind, Option.bind_some]
  split_ifs with hc <;> simp [hc]

theorem validTree_eq (h : R.Encodes off) (t : Int) :
    validTree t P off = some (decide (0 ≤ t ∧ t < K)) := by
  have := R.pos
  simp only [validTree, last_eq h (p := P - 1) (by omega) (by omega), R.last_top]
  simp only [Option.bind_eq_bind, Option.bind_some, Option.pure_def, Option.some.injEq,
    decide_eq_decide]
  omega

/-! ### Scanning over empty ranks -/

theorem scanUp (h : R.Encodes off) {q : Int} (h0 : 0 ≤ q) (h1 : q ≤ P) :
    ∃ r, whileO (fun q => if q < P then empty q off else some false) (fun q => some (q + 1)) q = some r ∧
      q ≤ r ∧ r ≤ P ∧ (∀ x, q ≤ x → x < r → R.last x < R.first x) ∧ (r < P → R.first r ≤ R.last r) := by
  obtain ⟨r, hr, ⟨h2, h3, h4⟩, hc⟩ := whileO_spec
    (cond := fun q => if q < P then empty q off else some false) (body := fun q => some (q + 1))
    (fun r => q ≤ r ∧ r ≤ P ∧ (∀ x, q ≤ x → x < r → R.last x < R.first x)) (fun r => (P - r).toNat)
    (by
      rintro s ⟨h2, h3, h4⟩
      by_cases hs : s < P
      · rw [if_pos hs, empty_eq h (by omega) hs]
        by_cases he : R.last s < R.first s
        · right
          refine ⟨by simp [he], s + 1, rfl, ⟨by omega, by omega, ?_⟩, by omega⟩
          intro x hx hx'
          rcases eq_or_ne x s with rfl | hne
          · exact he
          · exact h4 x hx (by omega)
        · left; simpa using he
      · left; simp [hs]) q ⟨le_rfl, h1, fun x hx hx' => by omega⟩
  refine ⟨r, hr, h2, h3, h4, fun hP => ?_⟩
  rw [if_pos hP, empty_eq h (by omega) hP] at hc
  simpa using hc

theorem scanDown (h : R.Encodes off) {q : Int} (h0 : -1 ≤ q) (h1 : q < P) :
    ∃ r, whileO (fun q => if 0 ≤ q then empty q off else some false) (fun q => some (q - 1)) q = some r ∧
      r ≤ q ∧ -1 ≤ r ∧ (∀ x, r < x → x ≤ q → R.last x < R.first x) ∧ (0 ≤ r → R.first r ≤ R.last r) := by
  obtain ⟨r, hr, ⟨h2, h3, h4⟩, hc⟩ := whileO_spec
    (cond := fun q => if 0 ≤ q then empty q off else some false) (body := fun q => some (q - 1))
    (fun r => r ≤ q ∧ -1 ≤ r ∧ (∀ x, r < x → x ≤ q → R.last x < R.first x)) (fun r => (r + 1).toNat)
    (by
      rintro s ⟨h2, h3, h4⟩
      by_cases hs : 0 ≤ s
      · rw [if_pos hs, empty_eq h hs (by omega)]
        by_cases he : R.last s < R.first s
        · right
          refine ⟨by simp [he], s - 1, rfl, ⟨by omega, by omega, ?_⟩, by omega⟩
          intro x hx hx'
          rcases eq_or_ne x s with rfl | hne
          · exact he
          · exact h4 x (by omega) hx'
        · left; simpa using he
      · left; simp [hs]) q ⟨le_rfl, h0, fun x hx hx' => by omega⟩
  refine ⟨r, hr, h2, h3, h4, fun hP => ?_⟩
  rw [if_pos hP, empty_eq h hP (by omega)] at hc
  simpa using hc

/-- The unguarded scan upwards ends at the first nonempty rank, if there is one. -/
theorem scanUp' (h : R.Encodes off) {q z : Int} (h0 : 0 ≤ q) (hqz : q ≤ z) (hz : z < P)
    (hzn : R.first z ≤ R.last z) :
    ∃ r, whileO (fun q => empty q off) (fun q => some (q + 1)) q = some r ∧
      q ≤ r ∧ r ≤ z ∧ (∀ x, q ≤ x → x < r → R.last x < R.first x) ∧ R.first r ≤ R.last r := by
  obtain ⟨r, hr, ⟨h2, h3, h4⟩, hc⟩ := whileO_spec
    (cond := fun q => empty q off) (body := fun q => some (q + 1))
    (fun r => q ≤ r ∧ r ≤ z ∧ (∀ x, q ≤ x → x < r → R.last x < R.first x)) (fun r => (P - r).toNat)
    (by
      rintro s ⟨h2, h3, h4⟩
      rw [empty_eq h (by omega) (by omega)]
      by_cases he : R.last s < R.first s
      · right
        have hsz : s ≠ z := by rintro rfl; omega
        refine ⟨by simp [he], s + 1, rfl, ⟨by omega, by omega, ?_⟩, by omega⟩
        intro x hx hx'
        rcases eq_or_ne x s with rfl | hne
        · exact he
        · exact h4 x hx (by omega)
      · left; simpa using he) q ⟨le_rfl, hqz, fun x hx hx' => by omega⟩
  refine ⟨r, hr, h2, h3, h4, ?_⟩
  rw [empty_eq h (by omega) (by omega)] at hc
  simpa using hc

theorem scanDown' (h : R.Encodes off) {q z : Int} (h0 : 0 ≤ z) (hqz : z ≤ q) (hz : q < P)
    (hzn : R.first z ≤ R.last z) :
    ∃ r, whileO (fun q => empty q off) (fun q => some (q - 1)) q = some r ∧
      r ≤ q ∧ z ≤ r ∧ (∀ x, r < x → x ≤ q → R.last x < R.first x) ∧ R.first r ≤ R.last r := by
  obtain ⟨r, hr, ⟨h2, h3, h4⟩, hc⟩ := whileO_spec
    (cond := fun q => empty q off) (body := fun q => some (q - 1))
    (fun r => r ≤ q ∧ z ≤ r ∧ (∀ x, r < x → x ≤ q → R.last x < R.first x)) (fun r => (r + 1).toNat)
    (by
      rintro s ⟨h2, h3, h4⟩
      rw [empty_eq h (by omega) (by omega)]
      by_cases he : R.last s < R.first s
      · right
        have hsz : s ≠ z := by rintro rfl; omega
        refine ⟨by simp [he], s - 1, rfl, ⟨by omega, by omega, ?_⟩, by omega⟩
        intro x hx hx'
        rcases eq_or_ne x s with rfl | hne
        · exact he
        · exact h4 x (by omega) hx'
      · left; simpa using he) q ⟨le_rfl, hqz, fun x hx hx' => by omega⟩
  refine ⟨r, hr, h2, h3, h4, ?_⟩
  rw [empty_eq h (by omega) (by omega)] at hc
  simpa using hc

/-- Owners are contiguous up to empty ranks. -/
theorem owns_between {p q x t : Int} (hp : R.Owns p t) (hq : R.Owns q t) (hpx : p ≤ x) (hxq : x ≤ q)
    (hx : R.first x ≤ R.last x) : R.Owns x t := by
  obtain ⟨p0, p1, p2, p3⟩ := hp
  obtain ⟨q0, q1, q2, q3⟩ := hq
  refine ⟨by omega, by omega, ?_, ?_⟩
  · rcases eq_or_lt_of_le hxq with rfl | hlt
    · exact q2
    · have := R.last_le_first (p := x) (q := q) (by omega) hlt q1
      omega
  · rcases eq_or_lt_of_le hpx with rfl | hlt
    · exact p3
    · have := R.last_le_first (p := p) (q := x) (by omega) hlt (by omega)
      omega

/-! ### Owner queries -/

theorem anyOwnerExt_spec (h : R.Encodes off) {t s : Int} (ht0 : 0 ≤ t) (htK : t < K)
    (hs0 : 0 ≤ s) (hs1 : s < P) :
    ∃ p, anyOwnerExt P s t off = some p ∧ R.Owns p t := by
  obtain ⟨z, hz, hmin⟩ := R.exists_first_owner ht0 htK
  obtain ⟨z0, z1, z2, z3⟩ := hz
  obtain ⟨r, hr, hI, hc⟩ := whileO_spec
    (cond := fun s : Int × Int × Int => (inRange t s.1 off).map (!·)) (body := anyOwnerBody t off)
    (fun s => 0 ≤ s.2.1 ∧ s.2.2 < P ∧ s.2.1 ≤ s.1 ∧ s.1 ≤ s.2.2 ∧ s.2.1 ≤ z ∧ z ≤ s.2.2)
    (fun s => (s.2.2 + 1 - s.2.1).toNat)
    (by
      rintro ⟨p, lo, hi⟩ ⟨h1, h2, h3, h4, h5, h6⟩
      dsimp only at h1 h2 h3 h4 h5 h6
      by_cases hin : R.first p ≤ t ∧ t ≤ R.last p
      · left; simp [inRange_eq h t (p := p) (by omega) (by omega), hin]
      · right
        refine ⟨?_, ?_⟩
        · simp only [inRange_eq h t (p := p) (by omega) (by omega), Option.map_some, hin,
            decide_false, Bool.not_false]
        · simp only [anyOwnerBody, last_eq h (p := p) (by omega) (by omega), Option.bind_eq_bind,
            Option.bind_some]
          by_cases hl : R.last p < t
          · refine ⟨((p + 1 + hi).tdiv 2, p + 1, hi), by simp [hl], ?_⟩
            have hzp : p < z := by
              by_contra hc
              have := R.last_mono z0 (show z ≤ p by omega) (by omega)
              omega
            have := Int.tdiv_eq_ediv_of_nonneg (a := p + 1 + hi) (b := 2) (by omega)
            dsimp only
            rw [this]
            omega
          · refine ⟨((lo + (p - 1)).tdiv 2, lo, p - 1), by simp [hl], ?_⟩
            have hzp : z ≤ p := hmin p (by omega) (by omega) (by omega)
            have hzp' : z ≠ p := by rintro rfl; exact hin ⟨z2, z3⟩
            have := Int.tdiv_eq_ediv_of_nonneg (a := lo + (p - 1)) (b := 2) (by omega)
            dsimp only
            rw [this]
            omega)
    (s, 0, P - 1) ⟨by simp, by simp, by simpa using hs0, by simp only; omega, by simpa using z0,
      by simp only; omega⟩
  obtain ⟨p, lo, hi⟩ := r
  refine ⟨p, by simp [anyOwnerExt, hr], ?_⟩
  obtain ⟨h1, h2, h3, h4, h5, h6⟩ := hI
  dsimp only at h1 h2 h3 h4 h5 h6
  rw [inRange_eq h t (p := p) (by omega) (by omega)] at hc
  have : R.first p ≤ t ∧ t ≤ R.last p := by simpa using hc
  exact ⟨by omega, by omega, this.1, this.2⟩

theorem anyOwner_spec (h : R.Encodes off) {t : Int} (ht0 : 0 ≤ t) (htK : t < K) :
    ∃ p, anyOwner P t off = some p ∧ R.Owns p t := by
  have hP := R.pos
  have := Int.tdiv_eq_ediv_of_nonneg (a := P - 1) (b := 2) (by omega)
  unfold anyOwner
  exact anyOwnerExt_spec h ht0 htK (by rw [this]; omega) (by rw [this]; omega)

theorem firstOwner_spec (h : R.Encodes off) {t s : Int} (ht0 : 0 ≤ t) (htK : t < K)
    (hs : s < 0 ∨ R.Owns s t) :
    ∃ p, firstOwner P t off s = some p ∧ R.Owns p t ∧ ∀ q, R.Owns q t → p ≤ q := by
  have hP := R.pos
  -- the owner the search starts from
  obtain ⟨s', hs', ho⟩ : ∃ s', (if s < 0 then anyOwner P t off else some s) = some s' ∧ R.Owns s' t := by
    rcases hs with hs | hs
    · rw [if_pos hs]; exact anyOwner_spec h ht0 htK
    · rw [if_neg (by have := hs.1; omega)]; exact ⟨s, rfl, hs⟩
  -- the outer loop
  obtain ⟨r, hr, hI, hc⟩ := whileO_spec
    (cond := fun p => if 0 ≤ p then inRange t p off else some false)
    (body := fun p => whileO (fun p => if 0 ≤ p then empty p off else some false)
      (fun p => some (p - 1)) (p - 1))
    (fun r => -1 ≤ r ∧ r < P ∧ (0 ≤ r → R.first r ≤ R.last r) ∧
      ∃ z, R.Owns z t ∧ r ≤ z ∧ ((∀ x, r < x → x < z → R.last x < R.first x)))
    (fun r => (r + 1).toNat)
    (by
      rintro p ⟨h1, h2, h3, z, hz, hpz, hz'⟩
      by_cases hp : 0 ≤ p
      · rw [if_pos hp, inRange_eq h t hp h2]
        by_cases hin : R.first p ≤ t ∧ t ≤ R.last p
        · right
          refine ⟨by simp [hin], ?_⟩
          obtain ⟨r, hr, hr1, hr2, hr3, hr4⟩ := scanDown h (q := p - 1) (by omega) (by omega)
          refine ⟨r, hr, ⟨hr2, by omega, hr4, p, ⟨hp, h2, hin.1, hin.2⟩, by omega, ?_⟩, by omega⟩
          intro x hx hx'
          exact hr3 x hx (by omega)
        · left; rw [decide_eq_false hin]
      · left; simp [hp])
    s' ⟨by have := ho.1; omega, ho.2.1, fun _ => by have := ho.2.2; omega, s', ho, le_rfl,
      fun x h1 h2 => by omega⟩
  obtain ⟨h1, h2, h3, z, hz, hrz, hz'⟩ := hI
  have hrnot : ¬ R.Owns r t := by
    rintro ⟨a, b, c, d⟩
    rw [if_pos a, inRange_eq h t a b] at hc
    simp [c, d] at hc
  have hrz' : r ≠ z := by rintro rfl; exact hrnot hz
  have hzn : R.first z ≤ R.last z := by have := hz.2.2; omega
  obtain ⟨u, hu, hu1, hu2, hu3, hu4⟩ := scanUp' h (q := r + 1) (z := z) (by omega) (by omega) hz.2.1 hzn
  have huz : u = z := by
    by_contra hne
    have := hz' u (by omega) (by omega)
    omega
  subst huz
  have hin : inRange t u off = some true := by
    rw [inRange_eq h t hz.1 hz.2.1]; simp [hz.2.2.1, hz.2.2.2]
  refine ⟨u, ?_, hz, ?_⟩
  · simp only [firstOwner, validTree_eq h t, hs', Option.bind_eq_bind, Option.bind_some, hr,
      assertO_true ho.2.1, assertO_true h1, hu, hin]
    simp [ht0, htK]
  · intro q hq
    by_contra hlt
    rcases lt_or_ge q r with hqr | hqr
    · have : R.first r ≤ R.last r := h3 (by have := hq.1; omega)
      exact hrnot (owns_between hq hz hqr.le (by omega) this)
    · rcases eq_or_ne q r with rfl | hne
      · exact hrnot hq
      · have := hz' q (by omega) (by omega)
        have := hq.2.2
        omega

theorem lastOwner_spec (h : R.Encodes off) {t s : Int} (ht0 : 0 ≤ t) (htK : t < K)
    (hs : s < 0 ∨ R.Owns s t) :
    ∃ p, lastOwner P t off s = some p ∧ R.Owns p t ∧ ∀ q, R.Owns q t → q ≤ p := by
  have hP := R.pos
  obtain ⟨s', hs', ho⟩ : ∃ s', (if s < 0 then anyOwner P t off else some s) = some s' ∧ R.Owns s' t := by
    rcases hs with hs | hs
    · rw [if_pos hs]; exact anyOwner_spec h ht0 htK
    · rw [if_neg (by have := hs.1; omega)]; exact ⟨s, rfl, hs⟩
  obtain ⟨r, hr, hI, hc⟩ := whileO_spec
    (cond := fun p => if p < P then inRange t p off else some false)
    (body := fun p => whileO (fun p => if p < P then empty p off else some false)
      (fun p => some (p + 1)) (p + 1))
    (fun r => 0 ≤ r ∧ r ≤ P ∧ (r < P → R.first r ≤ R.last r) ∧
      ∃ z, R.Owns z t ∧ z ≤ r ∧ ((∀ x, z < x → x < r → R.last x < R.first x)))
    (fun r => (P - r).toNat)
    (by
      rintro p ⟨h1, h2, h3, z, hz, hpz, hz'⟩
      by_cases hp : p < P
      · rw [if_pos hp, inRange_eq h t h1 hp]
        by_cases hin : R.first p ≤ t ∧ t ≤ R.last p
        · right
          refine ⟨by simp [hin], ?_⟩
          obtain ⟨r, hr, hr1, hr2, hr3, hr4⟩ := scanUp h (q := p + 1) (by omega) (by omega)
          refine ⟨r, hr, ⟨by omega, by omega, hr4, p, ⟨h1, hp, hin.1, hin.2⟩, by omega, ?_⟩, by omega⟩
          intro x hx hx'
          exact hr3 x (by omega) hx'
        · left; rw [decide_eq_false hin]
      · left; simp [hp])
    s' ⟨ho.1, ho.2.1.le, fun _ => by have := ho.2.2; omega, s', ho, le_rfl,
      fun x h1 h2 => by omega⟩
  obtain ⟨h1, h2, h3, z, hz, hrz, hz'⟩ := hI
  have hrnot : ¬ R.Owns r t := by
    rintro ⟨a, b, c, d⟩
    rw [if_pos b, inRange_eq h t a b] at hc
    simp [c, d] at hc
  have hrz' : r ≠ z := by rintro rfl; exact hrnot hz
  have hzn : R.first z ≤ R.last z := by have := hz.2.2; omega
  obtain ⟨u, hu, hu1, hu2, hu3, hu4⟩ := scanDown' h (q := r - 1) (z := z) hz.1 (by omega) (by omega) hzn
  have huz : u = z := by
    by_contra hne
    have := hz' u (by omega) (by omega)
    omega
  subst huz
  have hin : inRange t u off = some true := by
    rw [inRange_eq h t hz.1 hz.2.1]; simp [hz.2.2.1, hz.2.2.2]
  refine ⟨u, ?_, hz, ?_⟩
  · simp only [lastOwner, validTree_eq h t, hs', Option.bind_eq_bind, Option.bind_some, hr,
      assertO_true ho.2.1, assertO_true h2, hu, hin]
    simp [ht0, htK]
  · intro q hq
    by_contra hlt
    rcases lt_or_ge r q with hqr | hqr
    · have : R.first r ≤ R.last r := h3 (by have := hq.2.1; omega)
      exact hrnot (owns_between hz hq (by omega) hqr.le this)
    · rcases eq_or_ne q r with rfl | hne
      · exact hrnot hq
      · have := hz' q (by omega) (by omega)
        have := hq.2.2
        omega

/-- The scan used by next/prev owner, upwards. -/
theorem nextOwner_spec (h : R.Encodes off) {t p : Int} (ho : R.Owns p t) :
    ∃ q, nextOwner P t off p = some q ∧
      ((q = -1 ∧ ∀ x, R.Owns x t → x ≤ p) ∨
       (p < q ∧ R.Owns q t ∧ ∀ x, R.Owns x t → p < x → q ≤ x)) := by
  obtain ⟨r, hr, ⟨h2, h3, h4⟩, hc⟩ := whileO_spec
    (cond := fun q => if 0 ≤ q ∧ q < P then empty q off else some false)
    (body := fun q => some (q + 1))
    (fun r => p + 1 ≤ r ∧ r ≤ P ∧ (∀ x, p + 1 ≤ x → x < r → R.last x < R.first x))
    (fun r => (P - r).toNat)
    (by
      rintro s ⟨h2, h3, h4⟩
      have := ho.1
      by_cases hs : s < P
      · rw [if_pos ⟨by omega, hs⟩, empty_eq h (by omega) hs]
        by_cases he : R.last s < R.first s
        · right
          refine ⟨by simp [he], s + 1, rfl, ⟨by omega, by omega, ?_⟩, by omega⟩
          intro x hx hx'
          rcases eq_or_ne x s with rfl | hne
          · exact he
          · exact h4 x hx (by omega)
        · left; simpa using he
      · left; simp [hs]) (p + 1) ⟨le_rfl, by have := ho.2.1; omega, fun x hx hx' => by omega⟩
  have hp0 := ho.1
  have hnone : ∀ x, R.Owns x t → p < x → r ≤ x := by
    intro x hx hpx
    by_contra hlt
    have := h4 x (by omega) (by omega)
    have := hx.2.2
    omega
  simp only [nextOwner, nextPrevOwner, show (0 : Int) < 1 by decide, if_true, hr,
    Option.bind_eq_bind, Option.bind_some]
  by_cases hP : r < P
  · rw [if_pos ⟨by omega, hP⟩] at hc
    rw [empty_eq h (by omega) hP] at hc
    have hrn : R.first r ≤ R.last r := by simpa using hc
    rw [if_pos ⟨by omega, hP⟩, inRange_eq h t (by omega) hP]
    by_cases hin : R.first r ≤ t ∧ t ≤ R.last r
    · refine ⟨r, by simp [hin], Or.inr ⟨by omega, ⟨by omega, hP, hin.1, hin.2⟩, hnone⟩⟩
    · refine ⟨-1, by simp only [Option.bind_some, decide_eq_false hin]; rfl, Or.inl ⟨rfl, ?_⟩⟩
      intro x hx
      by_contra hlt
      have hrx := hnone x hx (by omega)
      have := owns_between ho hx (x := r) (by omega) hrx hrn
      exact hin this.2.2
  · refine ⟨-1, by simp [hP], Or.inl ⟨rfl, ?_⟩⟩
    intro x hx
    by_contra hlt
    have := hnone x hx (by omega)
    have := hx.2.1
    omega

theorem prevOwner_spec (h : R.Encodes off) {t p : Int} (ho : R.Owns p t) :
    ∃ q, prevOwner P t off p = some q ∧
      ((q = -1 ∧ ∀ x, R.Owns x t → p ≤ x) ∨
       (q < p ∧ R.Owns q t ∧ ∀ x, R.Owns x t → x < p → x ≤ q)) := by
  obtain ⟨r, hr, ⟨h2, h3, h4⟩, hc⟩ := whileO_spec
    (cond := fun q => if 0 ≤ q ∧ q < P then empty q off else some false)
    (body := fun q => some (q + -1))
    (fun r => r ≤ p - 1 ∧ -1 ≤ r ∧ (∀ x, r < x → x ≤ p - 1 → R.last x < R.first x))
    (fun r => (r + 1).toNat)
    (by
      rintro s ⟨h2, h3, h4⟩
      have := ho.2.1
      by_cases hs : 0 ≤ s
      · rw [if_pos ⟨hs, by omega⟩, empty_eq h hs (by omega)]
        by_cases he : R.last s < R.first s
        · right
          refine ⟨by simp [he], s + -1, rfl, ⟨by omega, by omega, ?_⟩, by omega⟩
          intro x hx hx'
          rcases eq_or_ne x s with rfl | hne
          · exact he
          · exact h4 x (by omega) hx'
        · left; simpa using he
      · left; simp [hs]) (p + -1) ⟨le_rfl, by have := ho.1; omega, fun x hx hx' => by omega⟩
  have hp1 := ho.2.1
  have hnone : ∀ x, R.Owns x t → x < p → x ≤ r := by
    intro x hx hpx
    by_contra hlt
    have := h4 x (by omega) (by omega)
    have := hx.2.2
    omega
  simp only [prevOwner, nextPrevOwner, show ¬ (0 : Int) < -1 by decide, if_false, hr,
    Option.bind_eq_bind, Option.bind_some]
  by_cases hP : 0 ≤ r
  · rw [if_pos ⟨hP, by omega⟩] at hc
    rw [empty_eq h hP (by omega)] at hc
    have hrn : R.first r ≤ R.last r := by simpa using hc
    rw [if_pos ⟨hP, by omega⟩, inRange_eq h t hP (by omega)]
    by_cases hin : R.first r ≤ t ∧ t ≤ R.last r
    · refine ⟨r, by simp [hin], Or.inr ⟨by omega, ⟨hP, by omega, hin.1, hin.2⟩, hnone⟩⟩
    · refine ⟨-1, by simp only [Option.bind_some, decide_eq_false hin]; rfl, Or.inl ⟨rfl, ?_⟩⟩
      intro x hx
      by_contra hlt
      have hrx := hnone x hx (by omega)
      have := owns_between hx ho (x := r) hrx (by omega) hrn
      exact hin this.2.2
  · refine ⟨-1, by simp [hP], Or.inl ⟨rfl, ?_⟩⟩
    intro x hx
    by_contra hlt
    have := hnone x hx (by omega)
    have := hx.1
    omega

theorem allOwners_spec (h : R.Encodes off) {t : Int} (ht0 : 0 ≤ t) (htK : t < K) :
    ∃ l, allOwners P t off = some l ∧ l.Pairwise (· < ·) ∧ ∀ q, q ∈ l ↔ R.Owns q t := by
  obtain ⟨p, hp, ho, hmin⟩ := firstOwner_spec h ht0 htK (s := -1) (Or.inl (by decide))
  obtain ⟨r, hr, ⟨hI1, hI2, hI3⟩, hc⟩ := whileO_spec
    (cond := fun s : Int × List Int => some (decide (0 ≤ s.1)))
    (body := fun s => do
      let q ← nextOwner P t off s.1
      return if 0 ≤ q then (q, s.2 ++ [q]) else (q, s.2))
    (fun s => s.2.Pairwise (· < ·) ∧ (0 ≤ s.1 → R.Owns s.1 t ∧ ∀ q, q ∈ s.2 ↔ R.Owns q t ∧ q ≤ s.1) ∧
      (s.1 < 0 → ∀ q, q ∈ s.2 ↔ R.Owns q t))
    (fun s => if s.1 < 0 then 0 else (P - s.1).toNat)
    (by
      rintro ⟨p, l⟩ ⟨h1, h2, h3⟩
      dsimp only at h1 h2 h3
      by_cases hp : 0 ≤ p
      · right
        obtain ⟨hop, hl⟩ := h2 hp
        refine ⟨by simp [hp], ?_⟩
        obtain ⟨q, hq, hq'⟩ := nextOwner_spec h hop
        simp only [hq, Option.bind_eq_bind, Option.bind_some]
        have hpP := hop.2.1
        rcases hq' with ⟨rfl, hq'⟩ | ⟨hpq, hoq, hq'⟩
        · refine ⟨(-1, l), by simp, ⟨h1, by simp, fun _ q => ?_⟩, ?_⟩
          · rw [hl]; exact ⟨fun h => h.1, fun h => ⟨h, hq' q h⟩⟩
          · simp only [show ¬ p < 0 by omega, if_false, show (-1 : Int) < 0 by decide, if_true]; omega
        · have hqP := hoq.2.1
          refine ⟨(q, l ++ [q]), by simp [show 0 ≤ q by omega], ⟨?_, fun _ => ⟨hoq, fun x => ?_⟩, ?_⟩, ?_⟩
          · rw [List.pairwise_append]
            refine ⟨h1, by simp, fun a ha b hb => ?_⟩
            have := (hl a).1 ha
            simp at hb
            omega
          · simp only [List.mem_append, hl, List.mem_singleton]
            constructor
            · rintro (⟨h, h'⟩ | rfl)
              · exact ⟨h, by omega⟩
              · exact ⟨hoq, le_rfl⟩
            · rintro ⟨h, h'⟩
              by_cases hx : x ≤ p
              · exact Or.inl ⟨h, hx⟩
              · have := hq' x h (by omega)
                right; omega
          · intro hneg; dsimp only at hneg; omega
          · simp only [show ¬ p < 0 by omega, if_false, show ¬ q < 0 by omega]; omega
      · left; simp [hp])
    (p, [p]) ⟨by simp, fun _ => ⟨ho, fun q => by
        simp only [List.mem_singleton]
        constructor
        · rintro rfl; exact ⟨ho, le_rfl⟩
        · rintro ⟨h1, h2⟩; have := hmin q h1; omega⟩, fun hneg => by have := ho.1; dsimp only at hneg; omega⟩
  refine ⟨r.2, ?_, hI1, hI3 (by simpa using hc)⟩
  simp only [allOwners, validTree_eq h t, hp]
  simp only [ht0, htK, and_self, decide_true, assertO_true, Option.bind_eq_bind, Option.bind_some]
  exact congrArg (fun o => Option.bind o (fun s => some s.2)) hr

/-! ### Who sends what -/

variable {T : TreePartition P K} {offT : List Int}

/-- When `s` sends tree `t` to `r`. -/
def Sends (F T : TreePartition P K) (s r t : Int) : Prop :=
  F.Owns s t ∧ T.Owns r t ∧ ¬ (F.first r ≤ F.last r ∧ t = F.first r ∧ s ≠ r) ∧
    ¬ (s ≠ r ∧ t = F.first s ∧ F.SharesFirst s)

theorem sendstree_eq (h : R.Encodes off) (h' : T.Encodes offT) {s r : Int} (t : Int) (s0 : 0 ≤ s)
    (s1 : s < P) (r0 : 0 ≤ r) (r1 : r < P) :
    ∃ b, sendstree s r t off offT = some b ∧ (b = true ↔ Sends R T s r t) := by
  obtain ⟨e, he, he2, _⟩ := rd_sign h s0 s1
  simp only [sendstree, inRange_eq h t s0 s1, inRange_eq h' t r0 r1, empty_eq h r0 r1, first_eq h r0 r1,
    first_eq h s0 s1, he, Option.bind_eq_bind, Option.bind_some]
  unfold Sends TreePartition.Owns
  by_cases c1 : R.first s ≤ t ∧ t ≤ R.last s
  · by_cases c2 : T.first r ≤ t ∧ t ≤ T.last r
    · by_cases c3 : R.first r ≤ R.last r ∧ t = R.first r ∧ s ≠ r
      · refine ⟨false, ?_, by simp only [Bool.false_eq_true, false_iff]; exact fun h => h.2.2.1 c3⟩
        simp only [c1, c2, and_self, decide_true, Bool.not_true, Bool.false_eq_true, if_false]
        rw [if_pos ⟨by simp [c3.1], c3.2.1, c3.2.2⟩]; rfl
      · by_cases c4 : s ≠ r ∧ t = R.first s ∧ R.SharesFirst s
        · refine ⟨false, ?_, by simp only [Bool.false_eq_true, false_iff]; exact fun h => h.2.2.2 c4⟩
          simp only [c1, c2, and_self, decide_true, Bool.not_true, Bool.false_eq_true, if_false]
          rw [if_neg (fun hh => c3 ⟨by simpa using hh.1, hh.2.1, hh.2.2⟩), if_pos ⟨c4.1, c4.2.1, he2.2 c4.2.2⟩]; rfl
        · refine ⟨true, ?_, by simp only [true_iff]; exact ⟨⟨s0, s1, c1⟩, ⟨r0, r1, c2⟩, c3, c4⟩⟩
          simp only [c1, c2, and_self, decide_true, Bool.not_true, Bool.false_eq_true, if_false]
          rw [if_neg (fun hh => c3 ⟨by simpa using hh.1, hh.2.1, hh.2.2⟩), if_neg (fun hh => c4 ⟨hh.1, hh.2.1, he2.1 hh.2.2⟩)]; rfl
    · refine ⟨false, ?_, by simp only [Bool.false_eq_true, false_iff]; exact fun h => c2 h.2.1.2.2⟩
      rw [decide_eq_true c1, decide_eq_false c2]; rfl
  · refine ⟨false, ?_, by simp only [Bool.false_eq_true, false_iff]; exact fun h => c1 h.1.2.2⟩
    rw [decide_eq_false c1]; rfl

/-- Every tree of the new partition has exactly one sender. -/
theorem sends_unique {F T : TreePartition P K} {r t : Int} (hT : T.Owns r t) :
    ∃ s, Sends F T s r t ∧ ∀ s', Sends F T s' r t → s' = s := by
  obtain ⟨t0, tK⟩ := T.owns_lt hT
  have r0 := hT.1
  have r1 := hT.2.1
  by_cases hk : F.first r ≤ F.last r ∧ t = F.first r
  · -- the receiver holds it already as its first tree
    refine ⟨r, ⟨⟨r0, r1, by omega, by omega⟩, hT, by simp, by simp⟩, ?_⟩
    intro s' hs'
    by_contra hne
    exact hs'.2.2.1 ⟨hk.1, hk.2, hne⟩
  · by_cases hown : F.Owns r t
    · -- the receiver holds it as a later tree, so it is its own sender
      refine ⟨r, ⟨hown, hT, by simp, by simp⟩, ?_⟩
      intro s' hs'
      by_contra hne
      rcases lt_or_gt_of_ne hne with hlt | hlt
      · have := F.last_le_first hs'.1.1 hlt r1
        have := hs'.1.2.2
        have := hown.2.2
        exact hk (by omega)
      · have h1 := F.last_le_first r0 hlt hs'.1.2.1
        have h2 := hs'.1.2.2
        have h3 := hown.2.2
        have h4 : t = F.first s' := by omega
        refine hs'.2.2.2 ⟨hne, h4, ⟨hs'.1.1, hs'.1.2.1, le_rfl, by omega⟩, r, hlt, ?_⟩
        rw [← h4]; exact hown
    · -- the smallest old owner sends
      obtain ⟨z, hz, hmin⟩ := F.exists_first_owner t0 tK
      refine ⟨z, ⟨hz, hT, fun h => hk ⟨h.1, h.2.1⟩, ?_⟩, ?_⟩
      · rintro ⟨_, h2, ⟨_, q, hq, hq'⟩⟩
        have := hmin q hq'.1 hq'.2.1 (by rw [h2]; exact hq'.2.2.2)
        omega
      · intro s' hs'
        by_contra hne
        have hle := hmin s' hs'.1.1 hs'.1.2.1 hs'.1.2.2.2
        have hlt : z < s' := by omega
        have h1 := F.last_le_first hz.1 hlt hs'.1.2.1
        have h2 := hs'.1.2.2
        have h3 := hz.2.2
        have h4 : t = F.first s' := by omega
        refine hs'.2.2.2 ⟨fun h => hown (h ▸ hs'.1), h4, ⟨hs'.1.1, hs'.1.2.1, le_rfl, by omega⟩, z, hlt, ?_⟩
        rw [← h4]; exact hz

theorem sendsto_eq (h : R.Encodes off) (h' : T.Encodes offT) {a b : Int} (a0 : 0 ≤ a)
    (a1 : a < P) (b0 : 0 ≤ b) (b1 : b < P) :
    ∃ c, sendsto a b off offT = some c ∧ (c = true ↔ ∃ t, Sends R T a b t) := by
  obtain ⟨ea, hea, hea2, _⟩ := rd_sign h a0 a1
  obtain ⟨eb, heb, heb2, _⟩ := rd_sign h b0 b1
  have hfb : ∀ x, inRange x b offT = some (decide (T.first b ≤ x ∧ x ≤ T.last b)) :=
    fun x => inRange_eq h' x b0 b1
  simp only [sendsto, empty_eq h a0 a1, empty_eq h' b0 b1, empty_eq h b0 b1, hea, heb,
    first_eq h a0 a1, first_eq h b0 b1, first_eq h' b0 b1, last_eq h a0 a1, last_eq h' b0 b1,
    Option.bind_eq_bind, Option.bind_some, hfb]
  by_cases ca : R.last a < R.first a
  · refine ⟨false, by simp [ca], ?_⟩
    simp only [Bool.false_eq_true, false_iff]
    rintro ⟨t, ht⟩
    have := ht.1.2.2
    omega
  by_cases cb : T.last b < T.first b
  · refine ⟨false, by simp [ca, cb], ?_⟩
    simp only [Bool.false_eq_true, false_iff]
    rintro ⟨t, ht⟩
    have := ht.2.1.2.2
    omega
  simp only [ca, cb, decide_false, Bool.false_eq_true, if_false, Option.bind_some, Bool.or_self]
  -- the flag `keeps_first`
  obtain ⟨kf, hkf, hkf2⟩ : ∃ kf : Bool, (if eb < 0 then
      if decide (T.first b ≤ R.first b ∧ R.first b ≤ T.last b) = true then
        Option.map (!·) (some (decide (R.last b < R.first b))) else some false
      else some false) = some kf ∧
      (kf = true ↔ R.SharesFirst b ∧ T.first b ≤ R.first b ∧ R.first b ≤ T.last b) := by
    by_cases c : eb < 0
    · have hs := heb2.1 c
      have hne : ¬ (R.last b < R.first b) := by have := hs.1.2.2.2; omega
      by_cases c' : T.first b ≤ R.first b ∧ R.first b ≤ T.last b
      · exact ⟨true, by simp [c, c', hne], by simp [hs, c']⟩
      · refine ⟨false, by simp only [c, decide_eq_false c']; rfl, by simp [hs, c']⟩
    · have hs := (not_congr heb2).1 c
      exact ⟨false, by simp [c], by simp [hs]⟩
  rw [hkf]
  simp only [Option.bind_some]
  have hsa := hea2
  by_cases hab : a = b ∧ kf = true
  · rw [if_pos hab]
    refine ⟨true, rfl, ?_⟩
    simp only [true_iff]
    obtain ⟨rfl, hk⟩ := hab
    have := hkf2.1 hk
    exact ⟨R.first a, ⟨a0, a1, le_rfl, by omega⟩, ⟨b0, b1, this.2⟩, by simp, by simp⟩
  · rw [if_neg hab]
    refine ⟨_, rfl, ?_⟩
    rw [decide_eq_true_iff]
    -- facts about the positions of the two ranges
    have f1 : a < b → R.last a ≤ R.first b := fun hlt => R.last_le_first a0 hlt b1
    have f2 : b < a → R.last b ≤ R.first a := fun hlt => R.last_le_first b0 hlt a1
    have f3 : a < b → R.last a = R.first b → R.first b ≤ R.last b → R.SharesFirst b := by
      intro hlt heq hle
      exact ⟨⟨b0, b1, le_rfl, hle⟩, a, hlt, a0, a1, by omega, by omega⟩
    have f4 : b < a → R.first b ≤ R.last b → R.last b = R.first a → R.SharesFirst a := by
      intro hlt hle heq
      exact ⟨⟨a0, a1, le_rfl, by omega⟩, b, hlt, b0, b1, by omega, by omega⟩
    have f5 : R.SharesFirst b → R.first b ≤ R.last b := fun hs => hs.1.2.2.2
    unfold Sends TreePartition.Owns
    by_cases hsA : R.SharesFirst a
    · have he : ea < 0 := hsa.2 hsA
      simp only [he, if_true, hsA, and_true]
      by_cases hk : kf = true
      · have hk2 := hkf2.1 hk
        have hne : a ≠ b := fun h => hab ⟨h, hk⟩
        have := f5 hk2.1
        simp only [hk, true_and]
        constructor
        · intro hh
          split_ifs at hh
          · omega
          · refine ⟨max (R.first a + 1) (T.first b), ⟨a0, a1, by omega, by omega⟩,
              ⟨b0, b1, by omega, by omega⟩, by omega, by omega⟩
          · refine ⟨max (R.first a + 1) (T.first b), ⟨a0, a1, by omega, by omega⟩,
              ⟨b0, b1, by omega, by omega⟩, by omega, by omega⟩
          · refine ⟨max (R.first a + 1) (T.first b), ⟨a0, a1, by omega, by omega⟩,
              ⟨b0, b1, by omega, by omega⟩, by omega, by omega⟩
        · rintro ⟨t, ht1, ht2, ht3, ht4⟩
          split_ifs <;> omega
      · have hkn := (not_congr hkf2).1 hk
        simp only [hk, Bool.false_eq_true, false_and, if_false, add_zero]
        constructor
        · intro hh
          refine ⟨max (R.first a + 1) (T.first b), ⟨a0, a1, by omega, by omega⟩,
              ⟨b0, b1, by omega, by omega⟩, ?_, by omega⟩
          rintro ⟨g1, g2, g3⟩
          rcases lt_or_gt_of_ne g3 with hlt | hlt
          · have := f1 hlt
            refine hkn ⟨f3 hlt (by omega) g1, by omega, by omega⟩
          · have := f2 hlt
            omega
        · rintro ⟨t, ht1, ht2, ht3, ht4⟩
          by_cases hne : a = b
          · subst hne
            have : t ≠ R.first a := by
              rintro rfl
              exact hkn ⟨hsA, ht2.2.2⟩
            omega
          · omega
    · have he : ¬ ea < 0 := fun hc => hsA (hsa.1 hc)
      simp only [he, if_false, hsA, and_false, not_false_iff, and_true, add_zero]
      by_cases hk : kf = true
      · have hk2 := hkf2.1 hk
        have hne : a ≠ b := fun h => hab ⟨h, hk⟩
        have := f5 hk2.1
        have f4' : b < a → R.last b < R.first a := by
          intro hlt
          have := f2 hlt
          rcases eq_or_lt_of_le this with h | h
          · exact absurd (f4 hlt (f5 hk2.1) h) hsA
          · exact h
        simp only [hk, true_and]
        constructor
        · intro hh
          split_ifs at hh
          · omega
          · refine ⟨max (R.first a) (T.first b), ⟨a0, a1, by omega, by omega⟩,
              ⟨b0, b1, by omega, by omega⟩, by omega⟩
          · refine ⟨max (R.first a) (T.first b), ⟨a0, a1, by omega, by omega⟩,
              ⟨b0, b1, by omega, by omega⟩, by omega⟩
          · refine ⟨max (R.first a) (T.first b), ⟨a0, a1, by omega, by omega⟩,
              ⟨b0, b1, by omega, by omega⟩, by omega⟩
        · rintro ⟨t, ht1, ht2, ht3⟩
          split_ifs <;> omega
      · have hkn := (not_congr hkf2).1 hk
        simp only [hk, Bool.false_eq_true, false_and, if_false, add_zero]
        constructor
        · intro hh
          refine ⟨max (R.first a) (T.first b), ⟨a0, a1, by omega, by omega⟩,
              ⟨b0, b1, by omega, by omega⟩, ?_⟩
          rintro ⟨g1, g2, g3⟩
          rcases lt_or_gt_of_ne g3 with hlt | hlt
          · have := f1 hlt
            refine hkn ⟨f3 hlt (by omega) g1, by omega, by omega⟩
          · have := f2 hlt
            exact hsA (f4 hlt g1 (by omega))
        · rintro ⟨t, ht1, ht2, ht3⟩
          omega

theorem rangeSend_eq (h : R.Encodes off) (h' : T.Encodes offT) {r lo hi : Int} (r0 : 0 ≤ r) (r1 : r < P)
    (hlo : 0 ≤ lo) (hhi : hi < P) (hle : lo ≤ hi + 1) :
    ∃ n, rangeSend lo hi r off offT = some n ∧
      ∃ l : List Int, l.Nodup ∧ (l.length : Int) = n ∧
        ∀ s, s ∈ l ↔ lo ≤ s ∧ s ≤ hi ∧ ∃ t, Sends R T s r t := by
  obtain ⟨⟨i, n⟩, hr, ⟨h1, h2, l, h3, h4, h5⟩, hc⟩ := whileO_spec
    (cond := fun s : Int × Int => some (decide (s.1 ≤ hi)))
    (body := fun s => do
      let b ← sendsto s.1 r off offT
      return (s.1 + 1, if b then s.2 + 1 else s.2))
    (fun s => lo ≤ s.1 ∧ s.1 ≤ hi + 1 ∧ ∃ l : List Int, l.Nodup ∧ (l.length : Int) = s.2 ∧
        ∀ x, x ∈ l ↔ lo ≤ x ∧ x < s.1 ∧ ∃ t, Sends R T x r t)
    (fun s => (hi + 1 - s.1).toNat)
    (by
      rintro ⟨i, n⟩ ⟨h1, h2, l, h3, h4, h5⟩
      dsimp only at h1 h2 h4 h5
      by_cases hi' : i ≤ hi
      · right
        refine ⟨by simp [hi'], ?_⟩
        obtain ⟨c, hc, hc2⟩ := sendsto_eq h h' (a := i) (b := r) (by omega) (by omega) r0 r1
        simp only [hc, Option.bind_eq_bind, Option.bind_some]
        refine ⟨_, rfl, ⟨by dsimp only; omega, by dsimp only; omega, ?_⟩, by dsimp only; omega⟩
        by_cases hcc : c = true
        · refine ⟨i :: l, ?_, by simp [hcc, h4], ?_⟩
          · rw [List.nodup_cons]
            refine ⟨fun hm => ?_, h3⟩
            have := (h5 i).1 hm
            omega
          · intro x
            simp only [List.mem_cons, h5]
            constructor
            · rintro (rfl | ⟨g1, g2, g3⟩)
              · exact ⟨h1, by omega, hc2.1 hcc⟩
              · exact ⟨g1, by omega, g3⟩
            · rintro ⟨g1, g2, g3⟩
              by_cases hx : x = i
              · exact Or.inl hx
              · exact Or.inr ⟨g1, by omega, g3⟩
        · refine ⟨l, h3, by simp [hcc, h4], ?_⟩
          intro x
          rw [h5]
          constructor
          · rintro ⟨g1, g2, g3⟩
            exact ⟨g1, by omega, g3⟩
          · rintro ⟨g1, g2, g3⟩
            refine ⟨g1, ?_, g3⟩
            have : x ≠ i := by rintro rfl; exact hcc (hc2.2 g3)
            omega
      · left; simp [hi'])
    (lo, 0) ⟨le_rfl, hle, [], by simp, by simp, fun x => by simp; omega⟩
  dsimp only at h1 h2 h4 h5
  refine ⟨n, by unfold rangeSend; rw [hr]; rfl, l, h3, h4, ?_⟩
  have : ¬ i ≤ hi := by simpa using hc
  intro x
  rw [h5]
  constructor
  · rintro ⟨g1, g2, g3⟩
    exact ⟨g1, by omega, g3⟩
  · rintro ⟨g1, g2, g3⟩
    exact ⟨g1, by omega, g3⟩


theorem nosend_eq (h : R.Encodes off) (h' : T.Encodes offT) {p : Int} (p0 : 0 ≤ p) (p1 : p < P) :
    ∃ c, nosend p P off offT = some c ∧ (c = true ↔ ∀ r t, ¬ Sends R T p r t) := by
  obtain ⟨e, he, he2, _⟩ := rd_sign h p0 p1
  simp only [nosend, empty_eq h p0 p1, numTrees_eq h p0 p1, he, first_eq h p0 p1, last_eq h p0 p1,
    inRange_eq h' _ p0 p1, Option.bind_eq_bind, Option.bind_some]
  by_cases c0 : R.last p < R.first p
  · refine ⟨true, by simp [c0], ?_⟩
    simp only [true_iff]
    intro r t ht
    have := ht.1.2.2
    omega
  rw [if_neg (by simpa using c0)]
  have hlen := R.len p p0 p1
  have hnn := R.nonneg p p0 p1
  have htop := R.last_le_top p0 p1
  -- a tree of `p` that nobody else may send is sent
  have key : ∀ t, R.Owns p t → (t = R.first p → R.SharesFirst p → T.Owns p t) →
      (∀ r, T.Owns r t → p < r → R.first r ≤ R.last r → R.first r ≠ t) → ∃ r t, Sends R T p r t := by
    intro t ht h1 h2
    by_cases hown : T.Owns p t
    · exact ⟨p, t, ht, hown, by simp, by simp⟩
    · obtain ⟨t0, tK⟩ := R.owns_lt ht
      obtain ⟨r, hr, _⟩ := T.exists_first_owner t0 tK
      have hrp : p ≠ r := by rintro rfl; exact hown hr
      refine ⟨r, t, ht, hr, ?_, ?_⟩
      · rintro ⟨g1, g2, g3⟩
        rcases lt_or_gt_of_ne hrp with hlt | hlt
        · exact h2 r hr hlt g1 g2.symm
        · have g4 := R.last_le_first hr.1 hlt p1
          have g5 := ht.2.2
          have g6 : t = R.first p := by omega
          exact hown (h1 g6 ⟨⟨p0, p1, le_rfl, by omega⟩, r, hlt, hr.1, hr.2.1, by omega, by omega⟩)
      · rintro ⟨g1, g2, g3⟩
        exact hown (h1 g2 g3)
  by_cases c1 : R.last p + 1 - R.first p ≤ 2
  swap
  · rw [if_neg c1]
    refine ⟨false, rfl, ?_⟩
    simp only [Bool.false_eq_true, false_iff, not_forall, not_not]
    refine key (R.first p + 1) ⟨p0, p1, by omega, by omega⟩ (by omega) ?_
    intro r hr hpr hrn heq
    have := R.last_le_first p0 hpr hr.2.1
    omega
  rw [if_pos c1]
  obtain ⟨fns, hfns, hfns2⟩ : ∃ fns : Bool, (if e < 0 then
      Option.map (!·) (some (decide (T.first p ≤ R.first p ∧ R.first p ≤ T.last p))) else some false)
      = some fns ∧ (fns = true ↔ R.SharesFirst p ∧ ¬ T.Owns p (R.first p)) := by
    by_cases c : e < 0
    · rw [if_pos c]
      refine ⟨_, rfl, ?_⟩
      simp only [Bool.not_eq_true', decide_eq_false_iff_not, he2.1 c, true_and, TreePartition.Owns, p0, p1]
    · rw [if_neg c]
      exact ⟨false, rfl, by simp [(not_congr he2).1 c]⟩
  rw [hfns]
  simp only [Option.bind_some]
  have hfns3 : fns = false ↔ ¬ (R.SharesFirst p ∧ ¬ T.Owns p (R.first p)) := by
    rw [← hfns2]; simp
  have one : fns = true → R.last p = R.first p → ∀ r t, ¬ Sends R T p r t := by
    intro hf h1 r t ht
    obtain ⟨g1, g2⟩ := hfns2.1 hf
    have g3 := ht.1.2.2
    have g4 : t = R.first p := by omega
    by_cases hrp : p = r
    · subst hrp; exact g2 (g4 ▸ ht.2.1)
    · exact ht.2.2.2 ⟨hrp, g4, g1⟩
  by_cases c2 : (fns = true ∧ R.last p + 1 - R.first p = 2) ∨ (fns = false ∧ R.last p + 1 - R.first p = 1)
  swap
  · rw [if_neg c2]
    simp only [Option.pure_def, Option.bind_some]
    by_cases hf : fns = true
    · have : R.last p = R.first p := by
        have : ¬ (R.last p + 1 - R.first p = 2) := fun h => c2 (Or.inl ⟨hf, h⟩)
        omega
      refine ⟨true, by simp [hf, this], ?_⟩
      simp only [true_iff]
      exact one hf this
    · have hf' : fns = false := by simpa using hf
      have h2 : R.last p + 1 - R.first p = 2 := by
        have : ¬ (R.last p + 1 - R.first p = 1) := fun h => c2 (Or.inr ⟨hf', h⟩)
        omega
      refine ⟨false, by simp [hf', h2], ?_⟩
      simp only [Bool.false_eq_true, false_iff, not_forall, not_not]
      have g := hfns3.1 hf'
      refine key (R.first p) ⟨p0, p1, by omega, by omega⟩ ?_ ?_
      · intro _ hs
        by_contra hc
        exact g ⟨hs, hc⟩
      · intro r hr hpr hrn heq
        have := R.last_le_first p0 hpr hr.2.1
        omega
  rw [if_pos c2]
  by_cases c3 : T.first p ≤ R.last p ∧ R.last p ≤ T.last p
  · rw [if_pos (by simpa using c3)]
    refine ⟨false, rfl, ?_⟩
    simp only [Bool.false_eq_true, false_iff, not_forall, not_not]
    exact ⟨p, R.last p, ⟨p0, p1, by omega, by omega⟩, ⟨p0, p1, c3⟩, by simp, by simp⟩
  rw [if_neg (by simpa using c3)]
  have c3' : ¬ T.Owns p (R.last p) := fun hh => c3 hh.2.2
  -- the last tree of `p` is not a first tree shared with a smaller rank
  have c4 : R.last p = R.first p → ¬ R.SharesFirst p := by
    intro heq hs
    rcases c2 with ⟨g1, g2⟩ | ⟨g1, g2⟩
    · omega
    · exact (hfns3.1 g1) ⟨hs, heq ▸ c3'⟩
  obtain ⟨tp, htp, tp1, tp2, tp3, tp4⟩ := scanUp h (q := p + 1) (by omega) (by omega)
  rw [htp]
  simp only [Option.bind_some]
  by_cases c5 : P ≤ tp ∨ R.first tp ≠ R.last p
  · have : (if P ≤ tp then some true else (first tp off).map (fun x => decide (x ≠ R.last p)))
        = some true := by
      by_cases c6 : P ≤ tp
      · simp [c6]
      · have c7 : R.first tp ≠ R.last p := c5.resolve_left c6
        simp [c6, first_eq h (p := tp) (by omega) (by omega), c7]
    rw [this]
    refine ⟨false, rfl, ?_⟩
    simp only [Bool.false_eq_true, false_iff, not_forall, not_not]
    refine key (R.last p) ⟨p0, p1, by omega, le_rfl⟩ (fun g1 g2 => absurd g2 (c4 g1)) ?_
    intro r hr hpr hrn heq
    have hr1 := hr.2.1
    have g1 : tp ≤ r := by
      by_contra hc
      have := tp3 r (by omega) (by omega)
      omega
    have c7 : R.first tp ≠ R.last p := c5.resolve_left (by omega)
    have g2 := R.last_le_first p0 (q := tp) (by omega) (by omega)
    have g3 := tp4 (by omega)
    rcases eq_or_lt_of_le g1 with g4 | g4
    · subst g4; exact c7 heq
    · have := R.last_le_first (p := tp) (q := r) (by omega) g4 hr1
      omega
  · have c6 : ¬ P ≤ tp := fun hc => c5 (Or.inl hc)
    have c7 : R.first tp = R.last p := by by_contra hc; exact c5 (Or.inr hc)
    have : (if P ≤ tp then some true else (first tp off).map (fun x => decide (x ≠ R.last p)))
        = some false := by
      simp [c6, first_eq h (p := tp) (by omega) (by omega), c7]
    rw [this]
    simp only [Option.bind_some, Bool.false_eq_true, if_false]
    obtain ⟨l, hl, _, hl2⟩ := allOwners_spec h' (t := R.last p) (by omega) (by omega)
    rw [hl]
    simp only [Option.bind_some]
    have hmap : l.mapM (fun q => inRange (R.last p) q off) =
        some (l.map (fun q => decide (R.first q ≤ R.last p ∧ R.last p ≤ R.last q))) := by
      refine mapM_some (fun q hq => ?_)
      have := (hl2 q).1 hq
      exact inRange_eq h _ this.1 this.2.1
    rw [hmap]
    simp only [Option.bind_some]
    by_cases c8 : ∀ q ∈ l, R.first q ≤ R.last p ∧ R.last p ≤ R.last q
    · rw [if_pos (by simpa using c8)]
      simp only [Option.pure_def, Option.bind_some]
      refine ⟨true, ?_, ?_⟩
      · rcases c2 with ⟨g1, g2⟩ | ⟨g1, g2⟩ <;> simp [g1, g2]
      · simp only [true_iff]
        intro r t ht
        have hr := ht.2.1
        have g3 := ht.1.2.2
        by_cases hl : t = R.last p
        · subst hl
          have hrp : p ≠ r := by rintro rfl; exact c3' hr
          obtain ⟨g4, g5⟩ := c8 r ((hl2 r).2 hr)
          rcases lt_or_gt_of_ne hrp with hlt | hlt
          · have := R.last_le_first p0 hlt hr.2.1
            exact ht.2.2.1 ⟨by omega, by omega, hrp⟩
          · have := R.last_le_first hr.1 hlt p1
            have g6 : R.last p = R.first p := by omega
            exact c4 g6 ⟨⟨p0, p1, le_rfl, by omega⟩, r, hlt, hr.1, hr.2.1, by omega, by omega⟩
        · have g4 : t = R.first p ∧ R.last p + 1 - R.first p = 2 := by omega
          have g5 : fns = true := by
            rcases c2 with ⟨g, _⟩ | ⟨_, g⟩
            · exact g
            · omega
          obtain ⟨g6, g7⟩ := hfns2.1 g5
          by_cases hrp : p = r
          · subst hrp; exact g7 (g4.1 ▸ hr)
          · exact ht.2.2.2 ⟨hrp, g4.1, g6⟩
    · rw [if_neg (by simpa using c8)]
      refine ⟨false, rfl, ?_⟩
      simp only [Bool.false_eq_true, false_iff, not_forall, not_not]
      simp only [not_forall] at c8
      obtain ⟨r, hr, hn⟩ := c8
      have hr' := (hl2 r).1 hr
      have hrp : p ≠ r := by rintro rfl; exact c3' hr'
      refine ⟨r, R.last p, ⟨p0, p1, by omega, le_rfl⟩, hr', fun g => hn (by omega), fun g => c4 g.2.1 g.2.2⟩


/-! ### The consistency check -/

theorem consistent_of_encodes (h : R.Encodes off) : consistent P off K = some true := by
  have hP := R.pos
  obtain ⟨⟨i, ret, lt⟩, hr, ⟨h1, h2, h3, h4⟩, hc⟩ := whileO_spec
    (cond := fun s : Int × Bool × Int => some (decide (s.1 < P) && s.2.1))
    (body := consistentBody K off)
    (fun s => 1 ≤ s.1 ∧ s.1 ≤ P ∧ s.2.1 = true ∧ s.2.2 = R.last (s.1 - 1)) (fun s => (P - s.1).toNat)
    (by
      rintro ⟨i, ret, lt⟩ ⟨h1, h2, h3, h4⟩
      dsimp only at h1 h2 h3 h4
      subst h3 h4
      by_cases hi : i < P
      · right
        refine ⟨by simp [hi], (i + 1, true, R.last i), ?_,
          ⟨by dsimp only; omega, by dsimp only; omega, rfl, by simp⟩, by dsimp only; omega⟩
        obtain ⟨e, he, he2, _⟩ := rd_sign h (p := i) (by omega) hi
        have hsi := R.sharesFirst_iff (p := i) (by omega) hi
        have hnext := R.next (i - 1) (by omega) (by omega)
        rw [sub_add_cancel] at hnext
        have hlen := R.len i (by omega) hi
        have htop := R.last_le_top (p := i) (by omega) hi
        simp only [consistentBody, empty_eq h (p := i) (by omega) hi, he, first_eq h (p := i) (by omega) hi,
          last_eq h (p := i) (by omega) hi, Option.bind_eq_bind, Option.bind_some]
        by_cases hempty : R.last i < R.first i
        · have h5 : ¬ e < 0 := by rw [he2, hsi]; omega
          have h6 : R.last (i - 1) = R.last i := by omega
          simp [hempty, h6, show 0 ≤ e by omega]
        · by_cases hs : e < 0
          · have h7 := hsi.1 (he2.1 hs)
            simp [hempty, hs, ← h7.2.1, show R.last i ≤ K by omega]
          · have h7 := R.first_eq_of_not_shares (p := i) (by omega) hi ((not_congr he2).1 hs)
            simp [hempty, hs, show R.last (i - 1) < R.first i by omega, show R.last i ≤ K by omega]
      · left; simp [hi])
    (1, true, R.last 0) ⟨by simp, by dsimp only; omega, rfl, by simp⟩
  have e0 : rd off 0 = some 0 := by
    rcases rd_entry h (p := 0) le_rfl hP with ⟨hs, _⟩ | ⟨_, he⟩
    · rw [R.sharesFirst_iff le_rfl hP] at hs; omega
    · rw [he, R.first_zero]
  dsimp only at h3
  subst h3
  simp only [consistent, e0, last_eq h le_rfl hP, Option.bind_eq_bind, Option.bind_some, decide_true,
    hr, rd_top h]
  simp

theorem encodes_of_consistent {off : List Int} (hP : 0 < P) (hK : 0 ≤ K) (hlen : (off.length : Int) = P + 1)
    (hc : consistent P off K = some true) : ∃ R : TreePartition P K, R.Encodes off := by
  -- read the array through a total function
  let o : Int → Int := fun p => off.getD p.toNat 0
  have ho : ∀ p, 0 ≤ p → p ≤ P → off[p.toNat]? = some (o p) := by
    intro p h0 h1
    have : p.toNat < off.length := by omega
    simp [o, List.getD_eq_getElem?_getD, List.getElem?_eq_getElem this]
  have hrd : ∀ p, 0 ≤ p → p ≤ P → rd off p = some (o p) := by
    intro p h0 h1
    rw [rd, if_neg (by omega), ho p h0 h1]
  have hfirst : ∀ p, 0 ≤ p → p ≤ P → first p off = some (|o p| + if o p < 0 then -1 else 0) := by
    intro p h0 h1
    simp [first, h0, hrd p h0 h1]
  have hlast : ∀ p, -1 ≤ p → p < P → last p off = some (|o (p + 1)| - 1) := by
    intro p h0 h1
    simp [last, h0, hrd (p + 1) (by omega) (by omega)]
  simp only [consistent, hrd 0 le_rfl hP.le, hlast 0 (by omega) hP, Option.bind_eq_bind,
    Option.bind_some, hrd P hP.le le_rfl] at hc
  cases hw : whileO (fun s : Int × Bool × Int => some (decide (s.1 < P) && s.2.1))
    (consistentBody K off) (1, decide (o 0 = 0), |o (0 + 1)| - 1) with
  | none => rw [hw] at hc; simp at hc
  | some r =>
    rw [hw] at hc
    simp only [Option.bind_some, Option.pure_def, Option.some.injEq, Bool.and_eq_true,
      decide_eq_true_eq] at hc
    obtain ⟨⟨h1, h2, h3⟩, h4⟩ := whileO_inv
      (fun s : Int × Bool × Int => 1 ≤ s.1 ∧ s.1 ≤ P ∧ (s.2.1 = true → o 0 = 0 ∧
        ∀ j, 1 ≤ j → j < s.1 →
          (|o j| + if o j < 0 then -1 else 0) ≤ |o (j + 1)| ∧
          ((|o j| + if o j < 0 then -1 else 0) = |o (j + 1)| → 0 ≤ o j)))
      (by
        rintro ⟨i, ret, lt⟩ ⟨i', ret', lt'⟩ ⟨g1, g2, g3⟩ g4 g5
        dsimp only at g1 g2 g3 g4
        simp only [Option.some.injEq, Bool.and_eq_true, decide_eq_true_eq] at g4
        obtain ⟨g4, rfl⟩ := g4
        obtain ⟨z1, z2⟩ := g3 rfl
        have hi0 : 0 ≤ i := by omega
        have hnum : ∃ n, numTrees i off = some n := by
          by_contra hcon
          have : numTrees i off = none := by
            cases hh : numTrees i off with
            | none => rfl
            | some n => exact absurd ⟨n, hh⟩ hcon
          simp [consistentBody, empty, hi0, this] at g5
        obtain ⟨n, hn⟩ := hnum
        have hn2 := hn
        simp only [numTrees, assertO_true hi0, hrd (i + 1) (by omega) (by omega),
          hfirst i hi0 g2, Option.bind_eq_bind, Option.bind_some] at hn2
        by_cases hge : 0 ≤ |o (i + 1)| - (|o i| + if o i < 0 then -1 else 0)
        swap
        · rw [assertO_false hge] at hn2; simp at hn2
        rw [assertO_true hge] at hn2
        simp only [Option.bind_some, Option.pure_def, Option.some.injEq] at hn2
        simp only [consistentBody, empty, assertO_true hi0, hn, Option.bind_eq_bind, Option.bind_some,
          hrd i hi0 g2, hfirst i hi0 g2, hlast i (by omega) g4] at g5
        by_cases hz : n ≤ 0
        · simp [hz] at g5
          obtain ⟨rfl, hret, rfl⟩ := g5
          refine ⟨by dsimp only; omega, by dsimp only; omega, fun hret' => ⟨z1, fun j hj1 hj2 => ?_⟩⟩
          dsimp only at hj2 hret'
          rcases eq_or_ne j i with rfl | hne
          · refine ⟨by omega, fun _ => ?_⟩
            subst hret
            simpa using hret'
          · exact z2 j hj1 (by omega)
        · simp [hz] at g5
          obtain ⟨rfl, hret, rfl⟩ := g5
          refine ⟨by dsimp only; omega, by dsimp only; omega, fun hret' => ⟨z1, fun j hj1 hj2 => ?_⟩⟩
          dsimp only at hj2
          rcases eq_or_ne j i with rfl | hne
          · exact ⟨by omega, fun _ => by omega⟩
          · exact z2 j hj1 (by omega))
      _ r hw ⟨le_rfl, by dsimp only; omega, fun hh => ⟨by simpa using hh, fun j h1 h2 => by dsimp only at h2; omega⟩⟩
    obtain ⟨z1, z2⟩ := h3 hc.1
    have hrP : r.1 = P := by
      have : ¬ r.1 < P := by
        intro hlt
        simp [hlt, hc.1] at h4
      omega
    rw [hrP] at z2
    have oP : o P = K := hc.2
    have habs : ∀ p, 0 ≤ p → p ≤ P → (o p < 0 → |o p| = - o p) ∧ (0 ≤ o p → |o p| = o p) :=
      fun p _ _ => ⟨abs_of_neg, abs_of_nonneg⟩
    let R : TreePartition P K :=
      { first := fun p => |o p| + if o p < 0 then -1 else 0
        last := fun p => |o (p + 1)| - 1
        pos := hP
        first_zero := by simp [z1]
        last_top := by simp [oP, abs_of_nonneg hK]
        nonneg := by
          intro p h0 h1
          have := habs p h0 h1.le
          split_ifs <;> omega
        len := by
          intro p h0 h1
          rcases eq_or_lt_of_le h0 with rfl | h0'
          · simp only [z1, abs_zero, lt_irrefl, if_false, add_zero, sub_add_cancel]
            exact abs_nonneg _
          · have := (z2 p (by omega) h1).1
            omega
        next := by
          intro p h0 h1
          have := habs (p + 1) (by omega) h1.le
          have := z2 (p + 1) (by omega) h1
          split_ifs at this ⊢ <;> omega }
    refine ⟨R, hlen, ?_, by rw [ho P hP.le le_rfl, oP]⟩
    intro p h0 h1
    rw [ho p h0 h1.le]
    have hs := R.sharesFirst_iff h0 h1
    have ha := habs p h0 h1.le
    congr 1
    have hneg : R.SharesFirst p ↔ o p < 0 := by
      rw [hs]
      show 0 < p ∧ (|o p| + if o p < 0 then -1 else 0) = |o (p - 1 + 1)| - 1 ∧
        (|o p| + if o p < 0 then -1 else 0) ≤ |o (p + 1)| - 1 ↔ o p < 0
      rw [sub_add_cancel]
      rcases eq_or_lt_of_le h0 with rfl | h0'
      · simp [z1]
      · have := z2 p (by omega) h1
        split_ifs at this ⊢ <;> omega
    by_cases hn : o p < 0
    · rw [if_pos (hneg.2 hn)]
      show o p = -(|o p| + if o p < 0 then -1 else 0) - 1
      rw [if_pos hn]; omega
    · rw [if_neg (fun hc => hn (hneg.1 hc))]
      show o p = |o p| + if o p < 0 then -1 else 0
      rw [if_neg hn]; omega

end T8.Offset
