/-
Lemmas on the corrected offsets of partition for coarsening (`Model/Pfc.lean`).
-/
import Verif.Lemmas.PfcMessages

namespace T8.Pfc
open T8.Spec T8.Trees RTree

variable {T : Nat → RTree} {S : (g : Nat) → Scheme (T g)} {seq : List (Σ g, (T g).E)}

theorem familyStep_spec (hS : ∀ g, (S g).Lawful) {rank : Int} {g : Nat} {x : (T g).E} (hx : (T g).Valid x) {m : Message T}
    (hm : m.itree = m.gtree) (hv : (T m.gtree).Valid m.parent) (r : Int × Int) :
    familyStep S rank g g x r m = some (if m.iproc < rank then (r.1 - contrib m g x, r.2) else (r.1, r.2 + contrib m g x)) := by
  rw [familyStep]
  by_cases hg : m.gtree = g
  · rw [if_pos (by omega), dif_pos hg]
    obtain ⟨iproc, itree, gt, par, n⟩ := m
    simp only at hg hv hm
    subst hg
    by_cases he : x = par
    · have hc : contrib ⟨iproc, itree, gt, par, n⟩ gt x = n := by
        rw [contrib]; exact if_pos ⟨rfl, he.symm⟩
      rw [if_pos ((hS _ |>.isEqual _ _ hx hv).2 he), hc]
      split <;> rfl
    · have hc : contrib ⟨iproc, itree, gt, par, n⟩ gt x = 0 := by
        rw [contrib]; exact if_neg (fun h => he (by obtain ⟨_, h⟩ := h; exact h.symm))
      rw [if_neg (fun h => he ((hS _ |>.isEqual _ _ hx hv).1 h)), hc]
      simp
  · have hc : contrib m g x = 0 := by
      rw [contrib]; exact if_neg (fun h => hg h.1)
    rw [if_neg (by omega), hc]
    simp

theorem foldlM_flatMap {α β : Type} {f : β → α → Option β} {s : Nat → List α} : ∀ (l : List Nat) (b : β),
    (l.flatMap s).foldlM f b = l.foldlM (fun b k => (s k).foldlM f b) b
  | [], b => rfl
  | k :: l, b => by
    rw [List.flatMap_cons, List.foldlM_append, List.foldlM_cons]
    congr 1
    funext b'
    exact foldlM_flatMap l b'

section Part
variable {P : Nat} (R : ElementPartition P seq.length) {bs : Int → List (OffTree (Σ g, (T g).E)) → Option Nat}

/-- The messages that process `p` has. -/
def Received (p : Nat) (messages : List (Message T)) : Prop :=
  ∃ (b e : Nat) (s : Nat → List (Message T)), messages = (List.range (e - b)).flatMap s ∧
    b ≤ p ∧ p < e ∧ e ≤ P ∧ R.off b + 9 ≤ max 9 (R.off p) ∧ min seq.length (R.off (p + 1) + 9) ≤ R.off e ∧
    ∀ k, b + k < e → (s k = [] ∧ (b + k = p ∨ R.off (b + k + 1) ≤ R.off (b + k))) ∨
      ∃ m, s k = [m] ∧ b + k ≠ p ∧ m.iproc = ((b + k : Nat) : Int) ∧ Told R m (b + k) p

/-- The loop over the messages adds the children on other processes. -/
theorem fold_spec (H : Linear seq) (hS : ∀ g, (S g).Lawful) {p : Nat} {messages : List (Message T)} (hM : Received R p messages) {g : Nat} {x : (T g).E}
    (hx : (T g).Valid x) (lb le : Int) :
    ∃ A B : Int, messages.foldlM (familyStep S p g g x) (lb, le) = some (lb - A, le + B) ∧
      A ≤ cnt seq g x (R.off p) ∧ B + cnt seq g x (R.off (p + 1)) ≤ cnt seq g x seq.length ∧
      ∀ a j, FamilyAt seq a g x → R.off p ≤ j → j < R.off (p + 1) → a ≤ j → j < a + (T g).nc x → (T g).nc x ≤ 10 →
        A = cnt seq g x (R.off p) ∧ B + cnt seq g x (R.off (p + 1)) = (T g).nc x := by
  obtain ⟨b, e, s, rfl, hbp, hpe, heP, h3, h4, hs⟩ := hM
  rw [foldlM_flatMap]
  have hmono := fun {i j : Nat} (h1 : i ≤ j) (h2 : j ≤ P) => cnt_mono (seq := seq) (g := g) (x := x) (R.off_mono h1 h2)
  -- for a family around the border the counts are exact
  let fam : Prop := ∃ a j, FamilyAt seq a g x ∧ R.off p ≤ j ∧ j < R.off (p + 1) ∧ a ≤ j ∧ j < a + (T g).nc x
  obtain ⟨r, hr, A, B, hAB, hA, hB, hfam⟩ := T8.Owner.foldlM_range
    (f := fun r k => (s k).foldlM (familyStep S p g g x) r)
    (fun k r => ∃ A B : Int, r = (lb - A, le + B) ∧
      A + cnt seq g x (R.off b) ≤ cnt seq g x (R.off (min (b + k) p)) ∧
      B + cnt seq g x (R.off (p + 1)) ≤ cnt seq g x (R.off (max (b + k) (p + 1))) ∧
      (fam → A + cnt seq g x (R.off b) = cnt seq g x (R.off (min (b + k) p)) ∧
        B + cnt seq g x (R.off (p + 1)) = cnt seq g x (R.off (max (b + k) (p + 1)))))
    (n := e - b)
    (by
      rintro k hk r ⟨A, B, rfl, hA, hB, hfam⟩
      rcases hs k (by omega) with ⟨hnil, hcase⟩ | ⟨m, hm, hne, hip, ht⟩
      · refine ⟨_, by rw [hnil]; rfl, A, B, rfl, ?_⟩
        rcases hcase with hc | hc
        · rw [show min (b + (k + 1)) p = min (b + k) p by omega, show max (b + (k + 1)) (p + 1) = max (b + k) (p + 1) by omega]
          exact ⟨hA, hB, hfam⟩
        · have hoff : R.off (b + k + 1) = R.off (b + k) := by
            have := R.mono (b + k) (by omega); omega
          have e1 : R.off (min (b + (k + 1)) p) = R.off (min (b + k) p) := by
            rcases Nat.lt_or_ge (b + k) p with h | h
            · rw [show min (b + (k + 1)) p = b + k + 1 by omega, show min (b + k) p = b + k by omega, hoff]
            · congr 1; omega
          have e2 : R.off (max (b + (k + 1)) (p + 1)) = R.off (max (b + k) (p + 1)) := by
            rcases Nat.lt_or_ge p (b + k) with h | h
            · rw [show max (b + (k + 1)) (p + 1) = b + k + 1 by omega, show max (b + k) (p + 1) = b + k by omega, hoff]
            · congr 1; omega
          rw [e1, e2]
          exact ⟨hA, hB, hfam⟩
      · rw [hm]
        simp only [List.foldlM_cons, List.foldlM_nil]
        rw [familyStep_spec hS hx ht.itree ht.valid]
        have hb := ht.bound g x
        rcases Nat.lt_or_ge (b + k) p with h | h
        · refine ⟨_, rfl, A + contrib m g x, B, ?_, ?_⟩
          · rw [if_pos (by omega)]
            simp only
            congr 1
            ring
          · rw [show min (b + (k + 1)) p = b + k + 1 by omega, show max (b + (k + 1)) (p + 1) = max (b + k) (p + 1) by omega]
            rw [show min (b + k) p = b + k by omega] at hA hfam
            refine ⟨by omega, hB, ?_⟩
            intro hf
            obtain ⟨f1, f2⟩ := hfam hf
            obtain ⟨a, j, ha, j1, j2, j3, j4⟩ := hf
            have hx := ht.exact a g x ha ⟨fun _ => by
              have := R.off_mono (p := b + k + 1) (q := p) (by omega) (by omega)
              omega, fun hc => by omega⟩
            exact ⟨by omega, f2⟩
        · refine ⟨_, rfl, A, B + contrib m g x, ?_, ?_⟩
          · rw [if_neg (by omega)]
            simp only
            congr 1
            ring
          · rw [show max (b + (k + 1)) (p + 1) = b + k + 1 by omega, show min (b + (k + 1)) p = min (b + k) p by omega]
            rw [show max (b + k) (p + 1) = b + k by omega] at hB hfam
            refine ⟨hA, by omega, ?_⟩
            intro hf
            obtain ⟨f1, f2⟩ := hfam hf
            obtain ⟨a, j, ha, j1, j2, j3, j4⟩ := hf
            have hx := ht.exact a g x ha ⟨fun hc => by omega, fun _ => by
              have := R.off_mono (p := p + 1) (q := b + k) (by omega) (by omega)
              omega⟩
            exact ⟨f1, by omega⟩)
    (b := (lb, le)) ⟨0, 0, by simp, by rw [show min (b + 0) p = b by omega]; omega,
      by rw [show max (b + 0) (p + 1) = p + 1 by omega]; omega, fun _ => by
      rw [show min (b + 0) p = b by omega, show max (b + 0) (p + 1) = p + 1 by omega]; omega⟩
  subst hAB
  rw [show min (b + (e - b)) p = p by omega, show max (b + (e - b)) (p + 1) = e by omega] at *
  have htop := hmono heP le_rfl
  rw [R.top] at htop
  refine ⟨A, B, hr, by omega, by omega, ?_⟩
  intro a j ha j1 j2 j3 j4 hnc
  obtain ⟨f1, f2⟩ := hfam ⟨a, j, ha, j1, j2, j3, j4⟩
  have hlen := ha.lt
  have hcb : cnt seq g x (R.off b) = 0 := by rw [ha.cnt H]; omega
  have hce : cnt seq g x (R.off e) = (T g).nc x := by rw [ha.cnt H]; omega
  omega

/-- `family_range_around_border` finds the complete family of the border element, if there is one. -/
theorem familyRange_spec (H : Linear seq) (hS : ∀ g, (S g).Lawful) (hbs : ∀ key l, Stash.IsBsearch compareElemTree key l (bs key l))
    (hnc : ∀ g x, (T g).Valid x → (T g).nc x ≤ 10) {p : Nat} (hp : p < P) {F : Forest T} (hF : Stored seq (R.off p) (R.off (p + 1)) F)
    {messages : List (Message T)} (hM : Received R p messages) {j : Nat} (h1 : R.off p ≤ j) (h2 : j < R.off (p + 1)) :
    ∃ (f : Bool) (u v : Int), familyRange S bs F p (R.off p) j messages = some (f, u, v) ∧
      (f = true → ∃ a g x, FamilyAt seq a g x ∧ a ≤ j ∧ j < a + (T g).nc x ∧ u = a ∧ v = ((a + (T g).nc x : Nat) : Int)) ∧
      (f = false → ∀ a g x, FamilyAt seq a g x → a ≤ j → j < a + (T g).nc x → False) := by
  have hhi : R.off (p + 1) ≤ seq.length := R.off_le (by omega)
  obtain ⟨l, base, hl, hat⟩ := indexInTree_spec hbs hF hhi h1 h2
  have hj := hat.seq_j
  have hve := H.valid _ _ _ hj
  -- the family of the border element is the one of its parent
  have hfam : ∀ a g x, FamilyAt seq a g x → a ≤ j → j < a + (T g).nc x →
      0 < (T l.tree.gtree).level l.element ∧ FamilyAt seq a l.tree.gtree ((T l.tree.gtree).parent l.element) ∧
      (T g).nc x = (T l.tree.gtree).nc ((T l.tree.gtree).parent l.element) := by
    intro a g x hf k1 k2
    obtain ⟨e', he', h0', hp'⟩ := (hf.sib H).2 ⟨k1, k2⟩
    rw [hj] at he'
    have hg : l.tree.gtree = g := congrArg Sigma.fst (Option.some.inj he')
    subst hg
    have he2 : l.element = e' := by simpa using he'
    rw [he2, hp']
    exact ⟨h0', hf, rfl⟩
  rw [familyRange, hl]
  simp only [Option.bind_eq_bind, Option.bind_some]
  by_cases h0 : (T l.tree.gtree).level l.element = 0
  · rw [if_pos h0]
    refine ⟨_, _, _, rfl, by simp, ?_⟩
    intro _ a g x hf k1 k2
    have := (hfam a g x hf k1 k2).1
    omega
  · rw [if_neg h0]
    have h0' : 0 < (T l.tree.gtree).level l.element := by omega
    have hvp := (T l.tree.gtree).valid_parent _ hve h0'
    have hlp := (T l.tree.gtree).level_parent _ hve h0'
    have hle := (T l.tree.gtree).level_le _ hve
    obtain ⟨r, hr, r1, r2, r3, r4⟩ := hat.down H hS hhi h2 h0'
    obtain ⟨r', hr', r1', r2', r3', r4'⟩ := hat.up H hS hhi h1 h0'
    rw [hr, hr']
    simp only [Option.bind_some]
    rw [hat.gtreeId, hat.offset]
    obtain ⟨A, B, hAB, hA, hB, hex⟩ := fold_spec R H hS hM hvp ((R.off p : Int) + ((base : Int) - R.off p) + ((r : Int) - base))
      ((R.off p : Int) + ((base : Int) - R.off p) + ((r' : Int) - base) + 1)
    rw [hAB]
    simp only [Option.bind_some]
    generalize (T l.tree.gtree).parent l.element = x at *
    have hrun := cnt_run (seq := seq) (g := l.tree.gtree) (x := x) (a := r) (b := r' + 1) (by omega) (fun i i1 i2 => by
      rcases Nat.lt_or_ge i j with h | h
      · exact r3 i i1 h.le
      · exact r3' i h (by omega))
    have hm1 := cnt_mono (seq := seq) (g := l.tree.gtree) (x := x) r1
    have hm2 := cnt_mono (seq := seq) (g := l.tree.gtree) (x := x) (show r' + 1 ≤ R.off (p + 1) by omega)
    have htot := cnt_le_nc (g := l.tree.gtree) (x := x) H seq.length
    -- the exact values if there is a family
    have hval : ∀ a, FamilyAt seq a l.tree.gtree x → a ≤ j → j < a + (T l.tree.gtree).nc x → (r : Int) - A = a ∧ (r' : Int) + 1 + B = (a + (T l.tree.gtree).nc x : Nat) := by
      intro a hf k1 k2
      obtain ⟨e1, e2⟩ := hex a j hf h1 h2 k1 k2 (hnc _ x hvp)
      have s1 := (hf.sib H).1 (r3 r le_rfl r2)
      have s2 := (hf.sib H).1 (r3' r' r1' le_rfl)
      rw [hf.cnt H] at e1 e2
      have t1 : r = R.off p ∨ r = a := by
        rcases r4 with h | h
        · exact Or.inl h
        · right
          by_contra hc
          exact h ((hf.sib H).2 (by omega))
      have t2 : r' + 1 = R.off (p + 1) ∨ r' + 1 = a + (T l.tree.gtree).nc x := by
        rcases r4' with h | h
        · exact Or.inl h
        · right
          by_contra hc
          exact h ((hf.sib H).2 (by omega))
      constructor <;> omega
    refine ⟨_, _, _, rfl, ?_, ?_⟩
    · intro hf
      simp only [decide_eq_true_eq] at hf
      obtain ⟨a, ha⟩ := family_of_cnt (n := seq.length) H (g := l.tree.gtree) (x := x) (by omega) hvp (by omega)
      have s1 := (ha.sib H).1 (r3 j r2 le_rfl)
      obtain ⟨v1, v2⟩ := hval a ha s1.1 s1.2
      exact ⟨a, _, x, ha, s1.1, s1.2, by omega, by omega⟩
    · intro hf a g' x' ha k1 k2
      obtain ⟨_, ha', hn⟩ := hfam a g' x' ha k1 k2
      obtain ⟨v1, v2⟩ := hval a ha' k1 (by omega)
      simp only [decide_eq_false_iff_not] at hf
      apply hf
      omega

/-- The corrected offsets that process `p` computes. -/
theorem correctLocal_spec (H : Linear seq) (hS : ∀ g, (S g).Lawful) (hbs : ∀ key l, Stash.IsBsearch compareElemTree key l (bs key l))
    (hnc : ∀ g x, (T g).Valid x → (T g).nc x ≤ 10) (Q : ElementPartition P seq.length) {mv : Nat → Nat} (hmv : ∀ o, Moved seq o (mv o))
    {p : Nat} (hp : p < P) {F : Forest T} (hF : Stored seq (R.off p) (R.off (p + 1)) F)
    {messages : List (Message T)} (hM : Received R p messages) {lo hi : Nat}
    (hlo : lowerBound Q.table P (R.off p) = lo) (hlo' : ∀ s, s < P → lo ≤ s → R.off p ≤ Q.off s)
    (hhi : lowerBound Q.table P (R.off (p + 1)) = hi) (hhiP : hi ≤ P) (hhi' : ∀ s, s < hi → Q.off s < R.off (p + 1)) :
    correctLocalOffsets S bs R.table Q.table P F p messages = some ((List.range (hi - lo)).map (fun k => (mv (Q.off (lo + k)) : Int))) := by
  rw [correctLocalOffsets, R.rd_table (by omega), show ((p : Int) + 1) = ((p + 1 : Nat) : Int) by omega, R.rd_table (by omega)]
  simp only [Option.bind_eq_bind, Option.bind_some]
  rw [hlo, hhi, show ((hi : Int) - lo).toNat = hi - lo by omega]
  rw [foldlM_collect (g := fun k => [(mv (Q.off (lo + k)) : Int)])]
  · rw [← List.map_eq_flatMap]
  · intro k hk l
    have h1 := hlo' (lo + k) (by omega) (by omega)
    have h2 := hhi' (lo + k) (by omega)
    rw [show (lo : Int) + k = ((lo + k : Nat) : Int) by omega, Q.rd_table (by omega)]
    simp only [Option.bind_some]
    obtain ⟨f, u, v, hr, hft, hff⟩ := familyRange_spec R H hS hbs hnc hp hF hM h1 h2
    rw [hr]
    simp only [Option.bind_some]
    cases f with
    | true =>
      rw [if_pos rfl]
      obtain ⟨a, g, x, hf, a1, a2, rfl, rfl⟩ := hft rfl
      obtain ⟨r, hr, hrP, r1, r2⟩ := procOwner_spec Q (e := (a : Int)) (by omega)
      rw [hr]
      by_cases hc : ((lo + k : Nat) : Int) ≤ r
      · rw [if_pos hc]
        have h3 := Q.off_mono (p := lo + k) (q := r) (by omega) (by omega)
        have h4 : Q.off (lo + k) = a := by omega
        have h5 : Moved seq a a := by
          refine Or.inl ⟨?_, rfl⟩
          rintro ⟨b, g', y, hf', b1, b2⟩
          have := hf.unique hf' (j := a) le_rfl (by omega) (by omega) b2
          omega
        rw [h4, (hmv a).unique h5]
        rfl
      · rw [if_neg hc]
        have h3 := r2 (lo + k) (by omega) (by omega)
        have h5 : Moved seq (Q.off (lo + k)) (a + (T g).nc x) := Or.inr ⟨a, g, x, hf, by omega, a2, rfl⟩
        rw [(hmv _).unique h5]
        rfl
    | false =>
      rw [if_neg (by simp)]
      have h5 : Moved seq (Q.off (lo + k)) (Q.off (lo + k)) := by
        refine Or.inl ⟨?_, rfl⟩
        rintro ⟨b, g', y, hf', b1, b2⟩
        exact hff rfl b g' y hf' (by omega) b2
      rw [(hmv _).unique h5]
      rfl

variable {forests : Nat → Forest T}

/-- All corrected offsets. -/
theorem correctionOffsets_spec (H : Linear seq) (hS : ∀ g, (S g).Lawful) (hbs : ∀ key l, Stash.IsBsearch compareElemTree key l (bs key l))
    (hnc : ∀ g x, (T g).Valid x → (T g).nc x ≤ 10) (hF : ∀ p, p < P → Stored seq (R.off p) (R.off (p + 1)) (forests p))
    (Q : ElementPartition P seq.length) {mv : Nat → Nat} (hmv : ∀ o, Moved seq o (mv o)) :
    correctionOffsets S bs R.table Q.table P forests = some ((List.range (P + 1)).map (fun b => (mv (Q.off b) : Int))) := by
  choose lb hlb hlbP hlb1 hlb2 using lowerBound_spec Q
  have hmono : ∀ x y, x ≤ y → lb x ≤ lb y := by
    intro x y hxy
    by_contra hc
    have h1 := hlb1 x (lb y) (by omega)
    have h2 := hlb2 y (lb y) (by have := hlbP x; omega) le_rfl
    omega
  have hlocal : ∀ p ∈ List.range P, localOffsets S bs R.table Q.table P forests p =
      some ((List.range (lb (R.off (p + 1)) - lb (R.off p))).map (fun k => (mv (Q.off (lb (R.off p) + k)) : Int))) := by
    intro p hp
    rw [List.mem_range] at hp
    have hnum := (hF p hp).num
    rw [T8.Partition.slice_length] at hnum
    have hle := R.off_le (p := p + 1) (by omega)
    have hm := R.mono p hp
    rw [localOffsets]
    by_cases hne : R.off p < R.off (p + 1)
    · rw [if_pos (by omega)]
      obtain ⟨sent, hsent, _⟩ := sends_spec R H hS hbs hF hp hne
      obtain ⟨b, e, s, hr, hrest⟩ := recv_spec R H hS hbs hF hp hne
      rw [hsent, hr]
      simp only [Option.bind_eq_bind, Option.bind_some]
      exact correctLocal_spec R H hS hbs hnc Q hmv hp (hF p hp) ⟨b, e, s, rfl, hrest⟩ (hlb _) (hlb2 _) (hlb _) (hlbP _) (hlb1 _)
    · rw [if_neg (by omega), show R.off (p + 1) = R.off p by omega, Nat.sub_self]
      rfl
  rw [correctionOffsets, mapM_some (g := fun p => (List.range (lb (R.off (p + 1)) - lb (R.off p))).map
    (fun k => (mv (Q.off (lb (R.off p) + k)) : Int))) hlocal]
  have hflat : ∀ n, n ≤ P → ((List.range n).map (fun p => (List.range (lb (R.off (p + 1)) - lb (R.off p))).map
      (fun k => (mv (Q.off (lb (R.off p) + k)) : Int)))).flatten = (List.range (lb (R.off n))).map (fun b => (mv (Q.off b) : Int)) := by
    intro n
    induction n with
    | zero =>
      intro _
      have : lb (R.off 0) = 0 := by
        by_contra hc
        have := hlb1 (R.off 0) 0 (by omega)
        rw [R.zero] at this
        omega
      rw [this]; rfl
    | succ n ih =>
      intro hn
      have hm := hmono _ _ (R.mono n (by omega))
      rw [List.range_succ, List.map_append, List.flatten_append, ih (by omega)]
      simp only [List.map_cons, List.map_nil, List.flatten_cons, List.flatten_nil, List.append_nil]
      obtain ⟨d, hd⟩ : ∃ d, lb (R.off (n + 1)) = lb (R.off n) + d := ⟨lb (R.off (n + 1)) - lb (R.off n), by omega⟩
      rw [hd, Nat.add_sub_cancel_left, List.range_add, List.map_append, List.map_map]
      rfl
  simp only [Option.bind_eq_bind, Option.bind_some]
  rw [hflat P le_rfl, R.top]
  have hP := hlbP seq.length
  rw [assertO_true (by simp [ElementPartition.table]; omega)]
  simp only [Option.bind_some, List.length_map, List.length_range]
  show some _ = some _
  congr 1
  have hN : mv seq.length = seq.length := Nat.le_antisymm ((hmv _).le_length le_rfl) (hmv _).le
  apply List.ext_getElem?
  intro i
  rcases Nat.lt_or_ge i (lb seq.length) with h | h
  · rw [List.getElem?_append_left (by simpa using h), List.getElem?_map, List.getElem?_map, List.getElem?_range h, List.getElem?_range (by omega)]
  · rw [List.getElem?_append_right (by simpa using h), List.length_map, List.length_range, List.getElem?_drop,
      show lb seq.length + (i - lb seq.length) = i by omega, ElementPartition.table, List.getElem?_map, List.getElem?_map]
    rcases Nat.lt_or_ge i (P + 1) with hi | hi
    · rw [List.getElem?_range hi]
      have : Q.off i = seq.length := by
        rcases Nat.eq_or_lt_of_le (show i ≤ P by omega) with h' | h'
        · rw [h', Q.top]
        · have h1 := hlb2 seq.length i h' h
          have h2 := Q.off_le (p := i) (by omega)
          omega
      simp only [Option.map_some]
      rw [this, hN]
    · rw [List.getElem?_eq_none (by simpa using hi)]
      rfl

end Part

end T8.Pfc
