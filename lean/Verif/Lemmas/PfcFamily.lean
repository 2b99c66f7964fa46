/-
Families of leaves in the sequence of all leaves of a forest.
-/
import Verif.Spec.Pfc
import Verif.Lemmas.Element

namespace T8.Pfc
open T8.Spec RTree

variable {T : Nat → RTree} {seq : List (Σ g, (T g).E)}

/-- The leaves of a forest in order. -/
structure Linear (seq : List (Σ g, (T g).E)) : Prop where
  valid : ∀ (i g : Nat) (x : (T g).E), seq[i]? = some ⟨g, x⟩ → (T g).Valid x
  before : ∀ (i j g : Nat) (x y : (T g).E), i < j → seq[i]? = some ⟨g, x⟩ → seq[j]? = some ⟨g, y⟩ → (T g).Before x y
  trees : ∀ (i j : Nat) (a b : Σ g, (T g).E), i < j → seq[i]? = some a → seq[j]? = some b → a.1 ≤ b.1

/-- Position, by tree and by order in the tree. -/
def Rel (T : Nat → RTree) (a b : Σ g, (T g).E) : Prop := a.1 < b.1 ∨ ∃ h : a.1 = b.1, (T b.1).Before (h ▸ a.2) b.2

theorem linear {P K : Nat} (D : LeafForest T P K) : Linear D.seq := by
  have hmem : ∀ y ∈ D.seq, y.1 < K ∧ y.2 ∈ D.leaves y.1 := by
    rintro ⟨g, x⟩ hy
    simp only [LeafForest.seq, leafSequence, List.mem_flatMap, List.mem_range, List.mem_map] at hy
    obtain ⟨g', hg', x', hx', he⟩ := hy
    cases he
    exact ⟨hg', hx'⟩
  have hpw : D.seq.Pairwise (Rel T) := by
    unfold LeafForest.seq leafSequence
    rw [List.pairwise_flatMap]
    refine ⟨?_, ?_⟩
    · intro g hg
      rw [List.pairwise_map]
      exact (D.ordered g (List.mem_range.1 hg)).2.imp (fun hb => Or.inr ⟨rfl, hb⟩)
    · refine (List.pairwise_lt_range (n := K)).imp ?_
      intro a b hab x hx y hy
      obtain ⟨_, _, rfl⟩ := List.mem_map.1 hx
      obtain ⟨_, _, rfl⟩ := List.mem_map.1 hy
      exact Or.inl hab
  have hrel : ∀ (i j : Nat) (a b : Σ g, (T g).E), i < j → D.seq[i]? = some a → D.seq[j]? = some b → Rel T a b := by
    intro i j a b hij hi hj
    obtain ⟨h1, h2⟩ := List.getElem?_eq_some_iff.1 hi
    obtain ⟨h3, h4⟩ := List.getElem?_eq_some_iff.1 hj
    have := List.pairwise_iff_getElem.1 hpw i j h1 h3 hij
    rwa [h2, h4] at this
  refine ⟨?_, ?_, ?_⟩
  · intro i g x hx
    have := hmem _ (List.mem_of_getElem? hx)
    exact (D.ordered g this.1).1 x this.2
  · intro i j g x y hij hi hj
    rcases hrel i j _ _ hij hi hj with h | ⟨_, h⟩
    · exact absurd h (lt_irrefl g)
    · exact h
  · intro i j a b hij hi hj
    rcases hrel i j a b hij hi hj with h | ⟨h, _⟩
    · exact h.le
    · exact h.le

/-- The leaf at position `j` is a child of the element `x` of tree `g`. -/
def Sib (seq : List (Σ g, (T g).E)) (g : Nat) (x : (T g).E) (j : Nat) : Prop :=
  ∃ e, seq[j]? = some ⟨g, e⟩ ∧ 0 < (T g).level e ∧ (T g).parent e = x

theorem childId_lt_of_before {U : RTree} {x y : U.E} (h : U.Before x y) (hx : 0 < U.level x) (hy : 0 < U.level y)
    (hp : U.parent x = U.parent y) : U.childId x < U.childId y := by
  obtain ⟨vx, vy⟩ := h.valid
  have cx := U.child_parent x vx hx
  have cy := U.child_parent y vy hy
  have lx := U.level_parent x vx hx
  have := U.level_le x vx
  rw [hp] at cx lx
  have ix := U.childId_lt x vx hx
  have iy := U.childId_lt y vy hy
  rw [hp] at ix
  by_contra hc
  rcases Nat.lt_or_ge (U.childId y) (U.childId x) with hl | hl
  · have hb := before_children (U.valid_parent y vy hy) (by omega) hl ix
    rw [cx, cy] at hb
    exact h.asymm hb
  · have : U.childId x = U.childId y := by omega
    rw [this, cy] at cx
    rw [cx] at h
    exact h.irrefl

theorem Linear.childId_lt (H : Linear seq) {i j g : Nat} {x y : (T g).E} (hij : i < j) (hi : seq[i]? = some ⟨g, x⟩)
    (hj : seq[j]? = some ⟨g, y⟩) (hx : 0 < (T g).level x) (hy : 0 < (T g).level y) (hp : (T g).parent x = (T g).parent y) :
    (T g).childId x < (T g).childId y :=
  childId_lt_of_before (H.before i j g x y hij hi hj) hx hy hp

theorem Linear.inj (H : Linear seq) {i j g : Nat} {x : (T g).E} (hi : seq[i]? = some ⟨g, x⟩) (hj : seq[j]? = some ⟨g, x⟩) : i = j := by
  rcases Nat.lt_trichotomy i j with h | h | h
  · exact absurd (H.before i j g x x h hi hj) Before.irrefl
  · exact h
  · exact absurd (H.before j i g x x h hj hi) Before.irrefl

open Classical in
/-- The number of children of `x` among the first `n` leaves. -/
noncomputable def cnt (seq : List (Σ g, (T g).E)) (g : Nat) (x : (T g).E) : Nat → Nat
  | 0 => 0
  | n + 1 => cnt seq g x n + if Sib seq g x n then 1 else 0

variable {g : Nat} {x : (T g).E}

theorem cnt_pos {n : Nat} (h : Sib seq g x n) : cnt seq g x (n + 1) = cnt seq g x n + 1 := by rw [cnt, if_pos h]
theorem cnt_neg {n : Nat} (h : ¬ Sib seq g x n) : cnt seq g x (n + 1) = cnt seq g x n := by rw [cnt, if_neg h]; rfl

theorem cnt_mono {a b : Nat} (h : a ≤ b) : cnt seq g x a ≤ cnt seq g x b := by
  induction b with
  | zero => rw [Nat.le_zero.1 h]
  | succ b ih =>
    rcases Nat.eq_or_lt_of_le h with he | hl
    · rw [he]
    · exact (ih (by omega)).trans (by rw [cnt]; omega)

theorem cnt_run {a b : Nat} (hab : a ≤ b) (h : ∀ i, a ≤ i → i < b → Sib seq g x i) : cnt seq g x b = cnt seq g x a + (b - a) := by
  induction b with
  | zero => rw [Nat.le_zero.1 hab]; rfl
  | succ b ih =>
    rcases Nat.eq_or_lt_of_le hab with he | hl
    · rw [he]; omega
    · rw [cnt_pos (h b (by omega) (by omega)), ih (by omega) (fun i h1 h2 => h i h1 (by omega))]
      omega

theorem cnt_none {a b : Nat} (hab : a ≤ b) (h : ∀ i, a ≤ i → i < b → ¬ Sib seq g x i) : cnt seq g x b = cnt seq g x a := by
  induction b with
  | zero => rw [Nat.le_zero.1 hab]
  | succ b ih =>
    rcases Nat.eq_or_lt_of_le hab with he | hl
    · rw [he]
    · rw [cnt_neg (h b (by omega) (by omega)), ih (by omega) (fun i h1 h2 => h i h1 (by omega))]

theorem cnt_le_childId (H : Linear seq) {n : Nat} : ∀ (k : Nat) (e : (T g).E), n ≤ k → seq[k]? = some ⟨g, e⟩ → 0 < (T g).level e →
    (T g).parent e = x → cnt seq g x n ≤ (T g).childId e := by
  induction n with
  | zero => intro k e _ _ _ _; simp [cnt]
  | succ n ih =>
    intro k e hk he h0 hp
    by_cases hs : Sib seq g x n
    · rw [cnt_pos hs]
      obtain ⟨e', he', h0', hp'⟩ := hs
      have h1 := ih n e' le_rfl he' h0' hp'
      have h2 := H.childId_lt (show n < k by omega) he' he h0' h0 (hp'.trans hp.symm)
      omega
    · rw [cnt_neg hs]
      exact ih k e (by omega) he h0 hp

theorem cnt_le_nc (H : Linear seq) (n : Nat) : cnt seq g x n ≤ (T g).nc x := by
  induction n with
  | zero => simp [cnt]
  | succ n ih =>
    by_cases hs : Sib seq g x n
    · rw [cnt_pos hs]
      obtain ⟨e', he', h0', hp'⟩ := hs
      have h1 := cnt_le_childId H n e' le_rfl he' h0' hp'
      have h2 := (T g).childId_lt e' (H.valid _ _ _ he') h0'
      rw [hp'] at h2
      omega
    · rw [cnt_neg hs]; exact ih

/-- After the leaf at position `j`, there are at most as many children as child ids. -/
theorem cnt_between (H : Linear seq) {j : Nat} {e : (T g).E} (he : seq[j]? = some ⟨g, e⟩) (h0 : 0 < (T g).level e)
    (hp : (T g).parent e = x) {n : Nat} (hn : j ≤ n) : ∀ (k : Nat) (e' : (T g).E), n ≤ k → seq[k]? = some ⟨g, e'⟩ → 0 < (T g).level e' →
    (T g).parent e' = x → cnt seq g x n + (T g).childId e ≤ cnt seq g x j + (T g).childId e' := by
  induction n with
  | zero =>
    intro k e' hk hk' h0' hp'
    have : j = 0 := by omega
    subst this
    rcases Nat.eq_zero_or_pos k with rfl | hk0
    · rw [he] at hk'
      cases hk'
      omega
    · have := H.childId_lt hk0 he hk' h0 h0' (hp.trans hp'.symm)
      omega
  | succ n ih =>
    intro k e' hk hk' h0' hp'
    rcases Nat.eq_or_lt_of_le hn with hj | hj
    · rw [← hj]
      rcases Nat.eq_or_lt_of_le hk with h | h
      · rw [← hj] at h
        rw [← h, he] at hk'
        cases hk'
        omega
      · have := H.childId_lt (show j < k by omega) he hk' h0 h0' (hp.trans hp'.symm)
        omega
    · by_cases hs : Sib seq g x n
      · rw [cnt_pos hs]
        obtain ⟨e'', he'', h0'', hp''⟩ := hs
        have h1 := ih (by omega) n e'' le_rfl he'' h0'' hp''
        have h2 := H.childId_lt (show n < k by omega) he'' hk' h0'' h0' (hp''.trans hp'.symm)
        omega
      · rw [cnt_neg hs]
        exact ih (by omega) k e' (by omega) hk' h0' hp'

theorem cnt_after (H : Linear seq) {j : Nat} {e : (T g).E} (he : seq[j]? = some ⟨g, e⟩) (h0 : 0 < (T g).level e)
    (hp : (T g).parent e = x) {n : Nat} (hn : j ≤ n) : cnt seq g x n + (T g).childId e ≤ cnt seq g x j + (T g).nc x := by
  have hlt := (T g).childId_lt e (H.valid _ _ _ he) h0
  rw [hp] at hlt
  induction n with
  | zero =>
    have : j = 0 := by omega
    subst this; omega
  | succ n ih =>
    rcases Nat.eq_or_lt_of_le hn with hj | hj
    · rw [← hj]; omega
    · by_cases hs : Sib seq g x n
      · rw [cnt_pos hs]
        obtain ⟨e'', he'', h0'', hp''⟩ := hs
        have h1 := cnt_between H he h0 hp (n := n) (by omega) n e'' le_rfl he'' h0'' hp''
        have h2 := (T g).childId_lt e'' (H.valid _ _ _ he'') h0''
        rw [hp''] at h2
        omega
      · rw [cnt_neg hs]
        exact ih (by omega)

theorem exists_cnt {n c : Nat} (h : c < cnt seq g x n) : ∃ j, j < n ∧ cnt seq g x j = c ∧ Sib seq g x j := by
  induction n with
  | zero => simp [cnt] at h
  | succ n ih =>
    by_cases hs : Sib seq g x n
    · rw [cnt_pos hs] at h
      rcases Nat.lt_or_ge c (cnt seq g x n) with hc | hc
      · obtain ⟨j, h1, h2⟩ := ih hc
        exact ⟨j, by omega, h2⟩
      · exact ⟨n, by omega, by omega, hs⟩
    · rw [cnt_neg hs] at h
      obtain ⟨j, h1, h2⟩ := ih h
      exact ⟨j, by omega, h2⟩

/-- Nothing lies between two consecutive children. -/
theorem no_between {U : RTree} {x y : U.E} {c : Nat} (hx : U.Valid x) (hl : U.level x < U.maxLevel) (hc : c + 1 < U.nc x)
    (h1 : U.Before (U.child x c) y) (h2 : U.Before y (U.child x (c + 1))) : False := by
  have vy := h1.valid.2
  have ly := U.level_le y vy
  have e1 := U.level_child x c hx hl (by omega)
  have e2 := U.level_child x (c + 1) hx hl hc
  have b1 := h1.lid_le (L := U.maxLevel) (by omega) ly le_rfl
  have b2 := h2.lid_le (L := U.maxLevel) ly (by omega) le_rfl
  have p := count_pos vy ly le_rfl
  rw [lid_child hx hl (i := c) (by omega)] at b1
  rw [lid_child hx hl hc, List.range_succ, List.map_append, List.sum_append] at b2
  simp only [List.map_cons, List.map_nil, List.sum_cons, List.sum_nil] at b2
  omega

/-- If as many children of `x` as it has are leaves, then they form a family. -/
theorem family_of_cnt (H : Linear seq) {n : Nat} (h : cnt seq g x n = (T g).nc x) (hx : (T g).Valid x)
    (hl : (T g).level x < (T g).maxLevel) : ∃ a, FamilyAt seq a g x := by
  have hnc := (T g).nc_pos x hx
  have hpos : ∀ c, c < (T g).nc x → ∃ j, cnt seq g x j = c ∧ seq[j]? = some ⟨g, (T g).child x c⟩ := by
    intro c hc
    obtain ⟨j, hj, hjc, e, he, h0, hp⟩ := exists_cnt (seq := seq) (g := g) (x := x) (n := n) (c := c) (by omega)
    have h1 := cnt_le_childId H j e le_rfl he h0 hp
    have h2 := cnt_after H he h0 hp (n := n) (by omega)
    have hid : (T g).childId e = c := by omega
    have h3 := (T g).child_parent e (H.valid _ _ _ he) h0
    rw [hp, hid] at h3
    exact ⟨j, hjc, by rw [h3]; exact he⟩
  obtain ⟨a, ha0, ha⟩ := hpos 0 hnc
  refine ⟨a, hx, hl, ?_⟩
  intro i
  induction i with
  | zero => intro _; exact ha
  | succ i ih =>
    intro hi
    have hprev := ih (by omega)
    obtain ⟨j, hj, hjs⟩ := hpos (i + 1) hi
    obtain ⟨j', hj', hjs'⟩ := hpos i (by omega)
    have hjj : j' = a + i := H.inj hjs' hprev
    have hlt : j' < j := by
      by_contra hc
      have := cnt_mono (seq := seq) (g := g) (x := x) (show j ≤ j' by omega)
      omega
    rcases Nat.eq_or_lt_of_le (show j' + 1 ≤ j by omega) with he | hl'
    · rw [show a + (i + 1) = j by omega]; exact hjs
    · exfalso
      have hlen : j < seq.length := (List.getElem?_eq_some_iff.1 hjs).1
      obtain ⟨⟨g', y⟩, hy⟩ : ∃ y, seq[j' + 1]? = some y := ⟨_, List.getElem?_eq_getElem (by omega)⟩
      have t1 := H.trees j' (j' + 1) _ _ (by omega) hjs' hy
      have t2 := H.trees (j' + 1) j _ _ hl' hy hjs
      simp only at t1 t2
      have : g' = g := by omega
      subst this
      exact no_between hx hl hi (H.before j' (j' + 1) _ _ _ (by omega) hjs' hy) (H.before (j' + 1) j _ _ _ hl' hy hjs)

theorem _root_.T8.Spec.FamilyAt.lt {a : Nat} (h : FamilyAt seq a g x) : a + (T g).nc x ≤ seq.length := by
  have hnc := (T g).nc_pos x h.1
  have := (List.getElem?_eq_some_iff.1 (h.2.2 ((T g).nc x - 1) (by omega))).1
  omega

theorem _root_.T8.Spec.FamilyAt.sib (H : Linear seq) {a : Nat} (h : FamilyAt seq a g x) {j : Nat} : Sib seq g x j ↔ a ≤ j ∧ j < a + (T g).nc x := by
  constructor
  · rintro ⟨e, he, h0, hp⟩
    have h2 := (T g).childId_lt e (H.valid _ _ _ he) h0
    have h3 := (T g).child_parent e (H.valid _ _ _ he) h0
    rw [hp] at h2 h3
    have h4 := h.2.2 _ h2
    rw [h3] at h4
    have := H.inj he h4
    omega
  · rintro ⟨h1, h2⟩
    refine ⟨(T g).child x (j - a), ?_, ?_, ?_⟩
    · rw [← h.2.2 (j - a) (by omega)]; congr 1; omega
    · rw [(T g).level_child x (j - a) h.1 h.2.1 (by omega)]; omega
    · exact (T g).parent_child x (j - a) h.1 h.2.1 (by omega)

theorem _root_.T8.Spec.FamilyAt.cnt (H : Linear seq) {a : Nat} (h : FamilyAt seq a g x) (n : Nat) : cnt seq g x n = min (n - a) ((T g).nc x) := by
  have h0 : ∀ m, m ≤ a → Pfc.cnt seq g x m = 0 := fun m hm => by
    rw [cnt_none (Nat.zero_le m) (fun i _ hi hs => by have := (h.sib H).1 hs; omega)]; rfl
  have h1 : ∀ m, m ≤ a + (T g).nc x → Pfc.cnt seq g x m = m - a := fun m hm => by
    rcases Nat.lt_or_ge m a with hc | hc
    · rw [h0 m (by omega)]; omega
    · rw [cnt_run hc (fun i h1 h2 => (h.sib H).2 (by omega)), h0 a le_rfl]; omega
  rcases Nat.lt_or_ge n (a + (T g).nc x) with hc | hc
  · rw [h1 n (by omega)]; omega
  · rw [cnt_none hc (fun i h1 _ hs => by have := (h.sib H).1 hs; omega), h1 _ le_rfl]; omega

/-- Two families with a common leaf are the same. -/
theorem _root_.T8.Spec.FamilyAt.unique {a b g' j : Nat} {x' : (T g').E} (h : FamilyAt seq a g x) (h' : FamilyAt seq b g' x')
    (h1 : a ≤ j) (h2 : j < a + (T g).nc x) (h3 : b ≤ j) (h4 : j < b + (T g').nc x') : a = b ∧ (T g).nc x = (T g').nc x' := by
  have e1 := h.2.2 (j - a) (by omega)
  have e2 := h'.2.2 (j - b) (by omega)
  rw [show a + (j - a) = j by omega] at e1
  rw [show b + (j - b) = j by omega, e1, Option.some.injEq] at e2
  have hg : g = g' := congrArg Sigma.fst e2
  subst hg
  have e3 : (T g).child x (j - a) = (T g).child x' (j - b) := by
    simpa using e2
  have hp : x = x' := by
    rw [← (T g).parent_child x (j - a) h.1 h.2.1 (by omega), e3, (T g).parent_child x' (j - b) h'.1 h'.2.1 (by omega)]
  subst hp
  have := (T g).childId_child x (j - a) h.1 h.2.1 (by omega)
  rw [e3, (T g).childId_child x (j - b) h.1 h.2.1 (by omega)] at this
  omega

/-! ### Moved offsets -/

theorem moved_exists (seq : List (Σ g, (T g).E)) (o : Nat) : ∃ o', Moved seq o o' := by
  by_cases h : Splits seq o
  · obtain ⟨a, g, x, h1, h2, h3⟩ := h
    exact ⟨_, Or.inr ⟨a, g, x, h1, h2, h3, rfl⟩⟩
  · exact ⟨o, Or.inl ⟨h, rfl⟩⟩

theorem _root_.T8.Spec.Moved.le {o o' : Nat} (h : Moved seq o o') : o ≤ o' := by
  rcases h with ⟨_, rfl⟩ | ⟨a, g, x, _, _, h1, rfl⟩
  · exact le_rfl
  · exact h1.le

theorem _root_.T8.Spec.Moved.mono {o o' k k' : Nat} (h : Moved seq o o') (h' : Moved seq k k') (hok : o ≤ k) : o' ≤ k' := by
  rcases h with ⟨_, rfl⟩ | ⟨a, g, x, f, h1, h2, rfl⟩
  · exact hok.trans h'.le
  · rcases Nat.lt_or_ge k (a + (T g).nc x) with hk | hk
    · rcases h' with ⟨hn, rfl⟩ | ⟨b, g', y, f', h3, h4, rfl⟩
      · exact absurd ⟨a, g, x, f, by omega, hk⟩ hn
      · have := f.unique f' (j := k) (by omega) hk (by omega) h4
        omega
    · exact hk.trans h'.le

theorem _root_.T8.Spec.Moved.unique {o o' o'' : Nat} (h : Moved seq o o') (h' : Moved seq o o'') : o' = o'' :=
  Nat.le_antisymm (h.mono h' le_rfl) (h'.mono h le_rfl)

theorem _root_.T8.Spec.Moved.not_splits {o o' : Nat} (h : Moved seq o o') : ¬ Splits seq o' := by
  rcases h with ⟨h, rfl⟩ | ⟨a, g, x, f, h1, h2, rfl⟩
  · exact h
  · rintro ⟨b, g', y, f', h3, h4⟩
    have := f.unique f' (j := a + (T g).nc x - 1) (by omega) (by omega) (by omega) (by omega)
    omega

theorem _root_.T8.Spec.Moved.le_length {o o' : Nat} (h : Moved seq o o') (ho : o ≤ seq.length) : o' ≤ seq.length := by
  rcases h with ⟨h, rfl⟩ | ⟨a, g, x, f, h1, h2, rfl⟩
  · exact ho
  · exact f.lt

end T8.Pfc
