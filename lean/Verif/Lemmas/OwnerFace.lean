/-
Lemmas on the search for all owners at a face (`Model/Owner.lean`).
-/
import Verif.Lemmas.Owner

namespace T8.Owner
open T8.Spec RTree

theorem foldlM_range {β : Type} {f : β → Nat → Option β} (I : Nat → β → Prop) {n : Nat}
    (h : ∀ k, k < n → ∀ b, I k b → ∃ b', f b k = some b' ∧ I (k + 1) b') {b : β} (hb : I 0 b) :
    ∃ b', (List.range n).foldlM f b = some b' ∧ I n b' := by
  induction n with
  | zero => exact ⟨b, rfl, hb⟩
  | succ n ih =>
    obtain ⟨c, hc, hI⟩ := ih (fun k hk => h k (by omega))
    obtain ⟨c', hc', hI'⟩ := h n (by omega) c hI
    refine ⟨c', ?_, hI'⟩
    rw [List.range_succ, List.foldlM_append, hc]
    simp [hc']

section Faces
variable {T : RTree} {F : FaceScheme T} {In : T.E → Nat → T.E → Nat → Prop}

/-- A descendant at a face of an element that is not of the finest level lies in one of the children at the face. -/
theorem face_child (hF : F.Lawful In) {e : T.E} {f : Nat} (he : T.Valid e) (hl : T.level e < T.maxLevel) (hf : f < F.numFaces e) {x : T.E}
    {h : Nat} (hx : T.Desc e x) (hlt : T.level e < T.level x) (hin : In x h e f) :
    ∃ k i : Nat, (F.childIdsAtFace e f)[k]? = some i ∧ i < T.nc e ∧ T.Desc (T.child e i) x ∧ In x h (T.child e i) (F.childFace e f k) := by
  rcases desc_cases he hx with rfl | ⟨_, i, hi, hd⟩
  · omega
  · obtain ⟨g', h1, h2⟩ := hF.between x h _ e f he (Desc.child_self hl hi) hd hin
    obtain ⟨k, hk⟩ := List.mem_iff_getElem?.1 ((hF.childIds_mem e f he hl hf i).2 ⟨hi, g', h1⟩)
    have h3 := hF.childFace e f k i he hl hf hk
    have := hF.unique _ _ _ _ _ he (Desc.child_self hl hi) h1 h3
    subst this
    exact ⟨k, i, hk, hi, hd, h2⟩

theorem childId_lt (hF : F.Lawful In) {e : T.E} {f : Nat} (he : T.Valid e) (hl : T.level e < T.maxLevel) (hf : f < F.numFaces e) {k i : Nat}
    (hk : (F.childIdsAtFace e f)[k]? = some i) : i < T.nc e :=
  ((hF.childIds_mem e f he hl hf i).1 (List.mem_of_getElem? hk)).1

theorem childId_mono (hF : F.Lawful In) {e : T.E} {f : Nat} (he : T.Valid e) (hl : T.level e < T.maxLevel) (hf : f < F.numFaces e)
    {k k' i i' : Nat} (hk : (F.childIdsAtFace e f)[k]? = some i) (hk' : (F.childIdsAtFace e f)[k']? = some i') (h : k < k') : i < i' := by
  obtain ⟨h1, rfl⟩ := List.getElem?_eq_some_iff.1 hk
  obtain ⟨h2, rfl⟩ := List.getElem?_eq_some_iff.1 hk'
  exact List.pairwise_iff_getElem.1 (hF.childIds_sorted e f he hl hf) k k' h1 h2 h

/-- The first child at the face has the same first descendant at the face. -/
theorem first_child (hF : F.Lawful In) {e : T.E} {f L i : Nat} (he : T.Valid e) (hl : T.level e < L) (hL : L ≤ T.maxLevel)
    (hf : f < F.numFaces e) (h0 : (F.childIdsAtFace e f)[0]? = some i) :
    F.firstDescendantFace (T.child e i) (F.childFace e f 0) L = F.firstDescendantFace e f L := by
  have hlm : T.level e < T.maxLevel := by omega
  have hi := childId_lt hF he hlm hf h0
  have hc := T.valid_child e i he hlm hi
  have hcl := T.level_child e i he hlm hi
  have hin := hF.childFace e f 0 i he hlm hf h0
  obtain ⟨a1, a2, ⟨ag, a3⟩, a4⟩ := hF.firstDescendantFace e f L he hf hl.le hL
  obtain ⟨b1, b2, ⟨bg, b3⟩, b4⟩ := hF.firstDescendantFace (T.child e i) (F.childFace e f 0) L hc (hF.bounds _ _ _ _ hin).1 (by omega) hL
  obtain ⟨k, j, hk, hj, hd, hin'⟩ := face_child hF he hlm hf a1 (by omega) a3
  have hcase := a4 _ bg ((Desc.child_self hlm hi).trans b1) b2 (hF.trans _ _ _ _ _ _ b3 hin)
  rcases Nat.eq_zero_or_pos k with rfl | hpos
  · rw [h0, Option.some.injEq] at hk
    subst hk
    rcases hcase with h | h
    · exact h
    · rcases b4 _ ag hd a2 hin' with h' | h'
      · exact h'.symm
      · exact absurd h h'.asymm
  · have hij := childId_mono hF he hlm hf h0 hk hpos
    have hb := (before_children he hlm hij hj).desc b1 hd
    rcases hcase with h | h
    · exact h
    · exact absurd hb h.asymm

/-- The last child at the face has the same last descendant at the face. -/
theorem last_child (hF : F.Lawful In) {e : T.E} {f L i k0 : Nat} (he : T.Valid e) (hl : T.level e < L) (hL : L ≤ T.maxLevel)
    (hf : f < F.numFaces e) (h0 : (F.childIdsAtFace e f)[k0]? = some i) (hk0 : k0 + 1 = F.numFaceChildren e f) :
    F.lastDescendantFace (T.child e i) (F.childFace e f k0) L = F.lastDescendantFace e f L := by
  have hlm : T.level e < T.maxLevel := by omega
  have hi := childId_lt hF he hlm hf h0
  have hc := T.valid_child e i he hlm hi
  have hcl := T.level_child e i he hlm hi
  have hin := hF.childFace e f k0 i he hlm hf h0
  obtain ⟨a1, a2, ⟨ag, a3⟩, a4⟩ := hF.lastDescendantFace e f L he hf hl.le hL
  obtain ⟨b1, b2, ⟨bg, b3⟩, b4⟩ := hF.lastDescendantFace (T.child e i) (F.childFace e f k0) L hc (hF.bounds _ _ _ _ hin).1 (by omega) hL
  obtain ⟨k, j, hk, hj, hd, hin'⟩ := face_child hF he hlm hf a1 (by omega) a3
  have hcase := a4 _ bg ((Desc.child_self hlm hi).trans b1) b2 (hF.trans _ _ _ _ _ _ b3 hin)
  have hklt := (List.getElem?_eq_some_iff.1 hk).1
  rw [hF.childIds_length e f he hlm hf] at hklt
  rcases Nat.lt_or_ge k k0 with hlt | hge
  · have hij := childId_mono hF he hlm hf hk h0 hlt
    have hb := (before_children he hlm hij hi).desc hd b1
    rcases hcase with h | h
    · exact h
    · exact absurd hb h.asymm
  · have : k = k0 := by omega
    subst this
    rw [h0, Option.some.injEq] at hk
    subst hk
    rcases hcase with h | h
    · exact h
    · rcases b4 _ ag hd a2 hin' with h' | h'
      · exact h'.symm
      · exact absurd h h'.asymm

end Faces

variable {T : Nat → RTree} {P K L : Nat} {D : DistForest T P K L} {g : Nat} {S : Scheme (T g)} {F : FaceScheme (T g)}
  {In : (T g).E → Nat → (T g).E → Nat → Prop}

theorem lid_le_of {x y : (T g).E} (hx : (T g).level x = L) (hy : (T g).level y = L) (hL : L ≤ (T g).maxLevel)
    (h : y = x ∨ (T g).Before x y) : lid x L ≤ lid y L := by
  rcases h with rfl | h
  · exact le_rfl
  · have := h.lid_le hx.le hy.le hL; omega

/-- All descendants of level `L` at the face belong to some process. -/
def CoveredAtFace (D : DistForest T P K L) (In : (T g).E → Nat → (T g).E → Nat → Prop) (e : (T g).E) (f : Nat) : Prop :=
  ∀ d h, (T g).Desc e d → (T g).level d = L → In d h e f → ∃ q, D.Covers q g d

theorem useDesc_eq (hS : S.Lawful) {given : Option (T g).E} {c : (T g).E} (hc : (T g).Valid c) (h : ∀ d, given = some d → d = c) :
    useDesc S given c = some c := by
  have : given.getD c = c := by
    cases hg : given with
    | none => rfl
    | some d => simp [h d hg]
  unfold useDesc
  simp only [this]
  rw [assertO_true ((hS.isEqual c c hc hc).2 rfl)]
  rfl

theorem pushOwner_eq {o : List Int} {q : Int} (ho : o.Pairwise (· < ·)) (hpos : ∀ x ∈ o, 0 ≤ x) (hq : 0 ≤ q) (hle : ∀ x ∈ o, x ≤ q) :
    (pushOwner o q).Pairwise (· < ·) ∧ ∀ x, x ∈ pushOwner o q ↔ x ∈ o ∨ x = q := by
  unfold pushOwner
  rcases List.eq_nil_or_concat o with rfl | ⟨o', l, rfl⟩
  · simp [show -1 < q by omega]
  · have hl := hle l (by simp)
    simp only [List.concat_eq_append, List.length_append, List.length_cons, List.length_nil, gt_iff_lt,
      show 0 < o'.length + (0 + 1) by omega, if_true, List.getLast?_append, List.getLast?_singleton, Option.some_or, Option.getD_some]
    simp only [List.concat_eq_append] at ho hpos hle
    by_cases h : l < q
    · rw [if_pos h]
      refine ⟨?_, by intro x; simp [or_assoc]⟩
      rw [List.pairwise_append]
      refine ⟨ho, by simp, ?_⟩
      intro x hx y hy
      simp only [List.mem_singleton] at hy
      subst hy
      rw [List.mem_append, List.mem_singleton] at hx
      rcases hx with hx | rfl
      · exact lt_trans ((List.pairwise_append.1 ho).2.2 x hx l (by simp)) h
      · exact h
    · rw [if_neg h]
      have : q = l := by omega
      subst this
      exact ⟨ho, by intro x; simp⟩

/-- What the recursion adds. -/
theorem ownersRec_spec {A : Tables} (hA : Matches D A) (hS : S.Lawful) (hF : F.Lawful In) (hgK : g < K) {lower upper : Nat}
    (hup : upper < P) :
    ∀ (n : Nat) (e : (T g).E) (f : Nat), (T g).Valid e → f < F.numFaces e → (T g).level e + n = L → CoveredAtFace D In e f →
      (∀ q, D.OwnsAtFace In q e f → lower ≤ q ∧ q ≤ upper ∧ Readable D A q) →
      ∀ fd ld : Option (T g).E, (∀ d, fd = some d → d = F.firstDescendantFace e f L) →
        (∀ d, ld = some d → d = F.lastDescendantFace e f L) →
        ∀ o : List Int, o.Pairwise (· < ·) → (∀ x ∈ o, 0 ≤ x) → (∀ x ∈ o, ∀ q, D.OwnsAtFace In q e f → x ≤ q) →
          ∃ o', ownersRec S A F g e f lower upper fd ld o = some o' ∧ o'.Pairwise (· < ·) ∧
            ∀ x, x ∈ o' ↔ x ∈ o ∨ ∃ q : Nat, D.OwnsAtFace In q e f ∧ x = q := by
  have hL := D.maxLevel g hgK
  intro n
  induction n with
  | zero =>
    intro e f he hf hn hcov hown fd ld hfd hld o ho hpos hle
    obtain ⟨a1, a2, ⟨ag, a3⟩, a4⟩ := hF.firstDescendantFace e f L he hf (by omega) hL
    obtain ⟨b1, b2, ⟨bg, b3⟩, b4⟩ := hF.lastDescendantFace e f L he hf (by omega) hL
    have ha := a1.eq_of_level he (by omega)
    have hb := b1.eq_of_level he (by omega)
    have hie := hF.refl e f he hf
    have hlev : (T g).level e = L := by omega
    obtain ⟨q, hq⟩ := hcov e f Desc.refl hlev hie
    have hqf : D.OwnsAtFace In q e f := ⟨e, f, Desc.refl, hlev, hie, hq⟩
    obtain ⟨q1, q2, q3⟩ := hown q hqf
    have hfind : ∀ guess : Int, (lower : Int) ≤ guess ∧ guess ≤ upper → findOwnerExt S A g e lower upper guess true = some (q : Int) := by
      intro guess hg
      exact findOwnerExt_eq hA hS he (b := true) (by simpa using hlev) ((owns_of_level hlev).2 hq) q3 (by omega) (by omega) (by omega)
        (by omega) hg
    have hchk : checkOwner S A e g q true = some true := by
      rw [checkOwner_eq hA hS he (b := true) (by simpa using hlev) ((owns_of_level hlev).2 hq) hq.1]; simp
    rw [ownersRec]
    rw [hA.level, useDesc_eq hS (b1.valid he) hld, useDesc_eq hS (a1.valid he) hfd, ha, hb]
    simp only [Option.bind_eq_bind, Option.bind_some]
    rw [hfind lower (by omega), hfind upper (by omega)]
    simp only [Option.bind_some]
    rw [assertO_true le_rfl]
    simp only [Option.bind_some, if_true, hchk]
    rw [assertO_true trivial]
    simp only [Option.bind_some, Option.pure_def]
    obtain ⟨h1, h2⟩ := pushOwner_eq ho hpos (q := q) (by omega) (fun x hx => hle x hx q hqf)
    refine ⟨_, rfl, h1, ?_⟩
    intro x
    rw [h2]
    constructor
    · rintro (h | rfl)
      · exact Or.inl h
      · exact Or.inr ⟨q, hqf, rfl⟩
    · rintro (h | ⟨q', ⟨d, h', c1, c2, c3, c4⟩, rfl⟩)
      · exact Or.inl h
      · have := c1.eq_of_level he (by omega)
        subst this
        exact Or.inr (by rw [owner_unique hlev c4 hq])
  | succ n ih =>
    intro e f he hf hn hcov hown fd ld hfd hld o ho hpos hle
    have hlm : (T g).level e < (T g).maxLevel := by omega
    obtain ⟨a1, a2, ⟨ag, a3⟩, a4⟩ := hF.firstDescendantFace e f L he hf (by omega) hL
    obtain ⟨b1, b2, ⟨bg, b3⟩, b4⟩ := hF.lastDescendantFace e f L he hf (by omega) hL
    obtain ⟨qa, hqa⟩ := hcov _ ag a1 a2 a3
    obtain ⟨qb, hqb⟩ := hcov _ bg b1 b2 b3
    have hqaf : D.OwnsAtFace In qa e f := ⟨_, ag, a1, a2, a3, hqa⟩
    have hqbf : D.OwnsAtFace In qb e f := ⟨_, bg, b1, b2, b3, hqb⟩
    obtain ⟨qa1, qa2, qa3⟩ := hown qa hqaf
    obtain ⟨qb1, qb2, qb3⟩ := hown qb hqbf
    have hab : qa ≤ qb := owner_mono a2 b2 hqa hqb (lid_le_of a2 b2 hL (a4 _ bg b1 b2 b3))
    have hfa : findOwnerExt S A g (F.firstDescendantFace e f L) lower upper lower true = some (qa : Int) :=
      findOwnerExt_eq hA hS (a1.valid he) (b := true) (by simpa using a2) ((owns_of_level a2).2 hqa) qa3 (by omega) (by omega) (by omega)
        (by omega) (by omega)
    have hfb : findOwnerExt S A g (F.lastDescendantFace e f L) lower upper upper true = some (qb : Int) :=
      findOwnerExt_eq hA hS (b1.valid he) (b := true) (by simpa using b2) ((owns_of_level b2).2 hqb) qb3 (by omega) (by omega) (by omega)
        (by omega) (by omega)
    rw [ownersRec]
    rw [hA.level, useDesc_eq hS (b1.valid he) hld, useDesc_eq hS (a1.valid he) hfd]
    simp only [Option.bind_eq_bind, Option.bind_some, hfa, hfb]
    rw [assertO_true (by omega)]
    simp only [Option.bind_some]
    by_cases heq : (qa : Int) = qb
    · rw [if_pos heq]
      have heq' : qa = qb := by omega
      subst heq'
      rw [checkOwner_eq hA hS (a1.valid he) (b := true) (by simpa using a2) ((owns_of_level a2).2 hqa) hqa.1,
        checkOwner_eq hA hS (b1.valid he) (b := true) (by simpa using b2) ((owns_of_level b2).2 hqb) hqa.1]
      simp only [Option.bind_some, decide_true]
      rw [assertO_true trivial]
      simp only [Option.bind_some, Option.pure_def]
      obtain ⟨h1, h2⟩ := pushOwner_eq ho hpos (q := qa) (by omega) (fun x hx => hle x hx qa hqaf)
      refine ⟨_, rfl, h1, ?_⟩
      intro x
      rw [h2]
      constructor
      · rintro (h | rfl)
        · exact Or.inl h
        · exact Or.inr ⟨qa, hqaf, rfl⟩
      · rintro (h | ⟨q', ⟨d, h', c1, c2, c3, c4⟩, rfl⟩)
        · exact Or.inl h
        · have k1 := owner_mono a2 c2 hqa c4 (lid_le_of a2 c2 hL (a4 _ h' c1 c2 c3))
          have k2 := owner_mono c2 b2 c4 hqb (lid_le_of c2 b2 hL (by
            rcases b4 _ h' c1 c2 c3 with h | h
            · exact Or.inl h.symm
            · exact Or.inr h))
          exact Or.inr (by omega)
    · rw [if_neg heq, assertO_true (by omega)]
      simp only [Option.bind_some]
      -- the children
      have hchild : ∀ {k i : Nat}, (F.childIdsAtFace e f)[k]? = some i → ∀ {q : Nat},
          D.OwnsAtFace In q ((T g).child e i) (F.childFace e f k) → D.OwnsAtFace In q e f := by
        rintro k i hk q ⟨d, h', c1, c2, c3, c4⟩
        have hi := childId_lt hF he hlm hf hk
        exact ⟨d, h', (Desc.child_self hlm hi).trans c1, c2, hF.trans _ _ _ _ _ _ c3 (hF.childFace e f k i he hlm hf hk), c4⟩
      have hordered : ∀ {k i k' i' : Nat}, (F.childIdsAtFace e f)[k]? = some i → (F.childIdsAtFace e f)[k']? = some i' → k < k' →
          ∀ {q q' : Nat}, D.OwnsAtFace In q ((T g).child e i) (F.childFace e f k) →
            D.OwnsAtFace In q' ((T g).child e i') (F.childFace e f k') → q ≤ q' := by
        rintro k i k' i' hk hk' hlt q q' ⟨d, h1, c1, c2, c3, c4⟩ ⟨d', h1', c1', c2', c3', c4'⟩
        have hi' := childId_lt hF he hlm hf hk'
        have hij := childId_mono hF he hlm hf hk hk' hlt
        have := (before_children he hlm hij hi').desc c1 c1'
        exact owner_mono c2 c2' c4 c4' (lid_le_of c2 c2' hL (Or.inr this))
      obtain ⟨o', ho', hI1, hI2⟩ := foldlM_range (n := F.numFaceChildren e f)
        (f := fun (owners : List Int) (ichild : Nat) => do
          let child ← (F.childrenAtFace e f)[ichild]?
          ownersRec S A F g child (F.childFace e f ichild) lower upper (if ichild = 0 then some (F.firstDescendantFace e f L) else none)
            (if ichild = F.numFaceChildren e f - 1 then some (F.lastDescendantFace e f L) else none) owners)
        (fun k o' => o'.Pairwise (· < ·) ∧ ∀ x, x ∈ o' ↔ x ∈ o ∨ ∃ k' i q : Nat, k' < k ∧ (F.childIdsAtFace e f)[k']? = some i ∧
          D.OwnsAtFace In q ((T g).child e i) (F.childFace e f k') ∧ x = q)
        (by
          rintro k hk c ⟨hc1, hc2⟩
          have hlen := hF.childIds_length e f he hlm hf
          obtain ⟨i, hi⟩ : ∃ i, (F.childIdsAtFace e f)[k]? = some i := ⟨_, List.getElem?_eq_getElem (by omega)⟩
          have hinc := childId_lt hF he hlm hf hi
          have hin := hF.childFace e f k i he hlm hf hi
          have hcl := (T g).level_child e i he hlm hinc
          have hv := (T g).valid_child e i he hlm hinc
          have hget : (F.childrenAtFace e f)[k]? = some ((T g).child e i) := by
            rw [hF.children e f he hlm hf, List.getElem?_map, hi]; rfl
          obtain ⟨c', hc', j1, j2⟩ := ih ((T g).child e i) (F.childFace e f k) hv (hF.bounds _ _ _ _ hin).1 (by omega)
            (by
              intro d h' k1 k2 k3
              exact hcov d h' ((Desc.child_self hlm hinc).trans k1) k2 (hF.trans _ _ _ _ _ _ k3 hin))
            (fun q hq => hown q (hchild hi hq))
            (if k = 0 then some (F.firstDescendantFace e f L) else none)
            (if k = F.numFaceChildren e f - 1 then some (F.lastDescendantFace e f L) else none)
            (by
              intro d hd
              split_ifs at hd with h0
              subst h0
              rw [first_child hF he (by omega) hL hf hi]
              exact (Option.some.inj hd).symm)
            (by
              intro d hd
              split_ifs at hd with h0
              rw [last_child hF he (by omega) hL hf hi (by omega)]
              exact (Option.some.inj hd).symm)
            c hc1
            (by
              intro x hx
              rcases (hc2 x).1 hx with h | ⟨_, _, q, _, _, _, rfl⟩
              · exact hpos x h
              · omega)
            (by
              intro x hx q hq
              rcases (hc2 x).1 hx with h | ⟨k', i', q', hk', hi', hq', rfl⟩
              · exact hle x h q (hchild hi hq)
              · have := hordered hi' hi hk' hq' hq
                omega)
          refine ⟨c', by rw [hget]; exact hc', j1, ?_⟩
          intro x
          rw [j2, hc2]
          constructor
          · rintro ((h | ⟨k', i', q', h1, h2, h3, h4⟩) | ⟨q, hq, rfl⟩)
            · exact Or.inl h
            · exact Or.inr ⟨k', i', q', by omega, h2, h3, h4⟩
            · exact Or.inr ⟨k, i, q, by omega, hi, hq, rfl⟩
          · rintro (h | ⟨k', i', q', h1, h2, h3, rfl⟩)
            · exact Or.inl (Or.inl h)
            · rcases Nat.lt_or_ge k' k with h | h
              · exact Or.inl (Or.inr ⟨k', i', q', h, h2, h3, rfl⟩)
              · have : k' = k := by omega
                subst this
                rw [hi, Option.some.injEq] at h2
                subst h2
                exact Or.inr ⟨q', h3, rfl⟩)
        (b := o) ⟨ho, by intro x; simp⟩
      refine ⟨o', ho', hI1, ?_⟩
      intro x
      rw [hI2]
      constructor
      · rintro (h | ⟨k, i, q, _, h2, h3, rfl⟩)
        · exact Or.inl h
        · exact Or.inr ⟨q, hchild h2 h3, rfl⟩
      · rintro (h | ⟨q, ⟨d, h', c1, c2, c3, c4⟩, rfl⟩)
        · exact Or.inl h
        · obtain ⟨k, i, hk, hi, hd, hin⟩ := face_child hF he hlm hf c1 (by omega) c3
          have hklt := (List.getElem?_eq_some_iff.1 hk).1
          rw [hF.childIds_length e f he hlm hf] at hklt
          exact Or.inr ⟨k, i, q, hklt, hk, ⟨d, h', hd, c2, hin, c4⟩, rfl⟩

end T8.Owner
