/-
Lemmas about the iteration over the leaves at a face.
-/
import Verif.Model.FaceIterate
import Verif.Lemmas.Search

namespace T8.FaceIterate
open T8.RTree T8.Leaf T8.Search

variable {T : RTree} {In : T.E → Nat → T.E → Nat → Prop}

/-! ### Answers -/

theorem Answered.nil {callback : FaceFn T} {h : FaceRecord T} : Answered callback h [] := by
  intro i c r hi; simp at hi

theorem Answered.append {callback : FaceFn T} {h l1 l2 : FaceRecord T} (h1 : Answered callback h l1)
    (h2 : Answered callback (h ++ l1) l2) : Answered callback h (l1 ++ l2) := by
  intro i c r hi
  rw [List.getElem?_append] at hi
  split at hi
  · rename_i hlt
    rw [List.take_append_of_le_length (by omega)]
    exact h1 i c r hi
  · rename_i hlt
    have := h2 _ c r hi
    have ht : (l1 ++ l2).take i = l1 ++ l2.take (i - l1.length) := by
      rw [List.take_append, List.take_of_length_le (by omega)]
    rw [this, List.append_assoc, ht]

theorem Answered.single {callback : FaceFn T} {h : FaceRecord T} (c : FaceCall T) : Answered callback h [(c, callback h c)] := by
  intro i c' r hi
  cases i with
  | zero =>
    simp only [List.getElem?_cons_zero, Option.some.injEq, Prod.mk.injEq] at hi
    obtain ⟨rfl, rfl⟩ := hi
    simp
  | succ n => simp at hi

theorem Answered.flatMap {callback : FaceFn T} {h : FaceRecord T} {logs : Nat → FaceRecord T} : ∀ {n : Nat},
    (∀ i, i < n → Answered callback (h ++ (List.range i).flatMap logs) (logs i)) →
    Answered callback h ((List.range n).flatMap logs)
  | 0, _ => Answered.nil
  | n + 1, hl => by
    rw [List.range_succ, List.flatMap_append]
    refine (Answered.flatMap (fun i hi => hl i (by omega))).append ?_
    simpa using hl n (by omega)

theorem fold_log {α : Type} {step : List α → Nat → Option (List α)} {P : Nat → List α → List α → Prop} :
    ∀ {n : Nat}, (∀ i, i < n → ∀ h, ∃ log, step h i = some (h ++ log) ∧ P i h log) →
    ∀ h, ∃ logs : Nat → List α, (List.range n).foldlM step h = some (h ++ (List.range n).flatMap logs) ∧
      ∀ i, i < n → P i (h ++ (List.range i).flatMap logs) (logs i)
  | 0, _, h => ⟨fun _ => [], by simp, by intro i hi; omega⟩
  | n + 1, hstep, h => by
    obtain ⟨logs, h1, h3⟩ := fold_log (n := n) (fun i hi => hstep i (by omega)) h
    obtain ⟨log, k1, k3⟩ := hstep n (by omega) (h ++ (List.range n).flatMap logs)
    have hsame : ∀ i, i ≤ n → (List.range i).flatMap (fun j => if j = n then log else logs j) = (List.range i).flatMap logs := by
      intro i hi
      refine List.flatMap_congr ?_
      intro j hj
      have := List.mem_range.1 hj
      rw [if_neg (by omega)]
    refine ⟨fun j => if j = n then log else logs j, ?_, ?_⟩
    · rw [List.range_succ, List.foldlM_append, h1, List.flatMap_append, hsame n le_rfl]
      simp [k1]
    · intro i hi
      rw [hsame i (by omega)]
      by_cases hin : i = n
      · subst hin
        dsimp only
        rw [if_pos rfl]
        exact k3
      · dsimp only
        rw [if_neg hin]
        exact h3 i (by omega)

/-! ### Records -/

section
variable {tree : Nat} {all ls : List T.E} {first : Nat} {e : T.E} {f : Nat}

theorem iterated_nil (h : ¬ ∃ x ∈ ls, T.Desc e x) : Iterated In tree all ls first e f [] where
  calls := by intro c r hc; cases hc
  order := List.Pairwise.nil
  called := by
    intro x
    constructor
    · rintro ⟨r, c, _, h⟩; cases h
    · rintro ⟨h1, _, ⟨y, hy, h2⟩, _⟩
      exact absurd ⟨y, hy, h1.trans h2⟩ h

/-- The record of an iteration, put together from the call on `e` and those below. -/
theorem iterated_step (he : T.Valid e) {c : FaceCall T} {r : Bool} {L : FaceRecord T}
    (hc : c.tree = tree ∧ c.elem = e ∧ In c.elem c.face e f ∧ (c.isLeaf = true ↔ c.elem ∈ all) ∧
      ∃ k, PartBelow ls c.elem c.leaves k ∧ c.index = first + k)
    (hne : ∃ x ∈ ls, T.Desc e x)
    (hL : ∀ d s, (d, s) ∈ L → d.tree = tree ∧ T.Desc e d.elem ∧ In d.elem d.face e f ∧ (d.isLeaf = true ↔ d.elem ∈ all) ∧
      (∃ k, PartBelow ls d.elem d.leaves k ∧ d.index = first + k) ∧ d.elem ≠ e)
    (hLo : L.Pairwise (fun p q => T.Lt p.1.elem q.1.elem))
    (hLc : ∀ x, x ≠ e → T.Desc e x → ((∃ s, Called L x s) ↔ (∃ g, In x g e f) ∧ (∃ y ∈ ls, T.Desc x y) ∧ r = true ∧
      ∀ a, T.Desc e a → T.Desc a x → a ≠ x → a ≠ e → Called L a true)) :
    Iterated In tree all ls first e f ((c, r) :: L) := by
  have hself : ∀ s, Called ((c, r) :: L) e s ↔ s = r := by
    intro s
    constructor
    · rintro ⟨d, hd, hm⟩
      rcases List.mem_cons.1 hm with h | h
      · injection h
      · exact absurd hd (hL _ _ h).2.2.2.2.2
    · rintro rfl
      exact ⟨c, hc.2.1, by simp⟩
  have hbelow : ∀ x s, x ≠ e → (Called ((c, r) :: L) x s ↔ Called L x s) := by
    intro x s hx
    constructor
    · rintro ⟨d, hd, hm⟩
      rcases List.mem_cons.1 hm with h | h
      · injection h with h1 _
        exact absurd (hd.symm.trans (h1 ▸ hc.2.1)) hx
      · exact ⟨d, hd, h⟩
    · rintro ⟨d, hd, hm⟩
      exact ⟨d, hd, by simp [hm]⟩
  refine ⟨?_, ?_, ?_⟩
  · intro d s hm
    rcases List.mem_cons.1 hm with h | h
    · injection h with h1 _
      subst h1
      exact ⟨hc.1, hc.2.1 ▸ Desc.refl, hc.2.2⟩
    · obtain ⟨h1, h2, h3, h4, h5, _⟩ := hL d s h
      exact ⟨h1, h2, h3, h4, h5⟩
  · refine List.Pairwise.cons ?_ hLo
    intro p hp
    obtain ⟨_, h2, _, _, _, h6⟩ := hL p.1 p.2 hp
    right
    rw [hc.2.1]
    exact ⟨h2, fun h => h6 h.symm⟩
  · intro x
    by_cases hx : x = e
    · subst hx
      constructor
      · intro _
        refine ⟨Desc.refl, ⟨c.face, hc.2.1 ▸ hc.2.2.1⟩, hne, ?_⟩
        intro a h1 h2 h3
        exfalso
        have l1 := h1.level_le he
        exact h3 (h2.eq_of_level (h1.valid he) (by omega)).symm
      · intro _
        exact ⟨r, (hself r).2 rfl⟩
    · constructor
      · rintro ⟨s, hs⟩
        rw [hbelow x s hx] at hs
        have hd : T.Desc e x := by
          obtain ⟨d, hd, hm⟩ := hs
          exact hd ▸ (hL d s hm).2.1
        obtain ⟨h1, h2, h3, h4⟩ := (hLc x hx hd).1 ⟨s, hs⟩
        refine ⟨hd, h1, h2, ?_⟩
        intro a ha hax hne'
        by_cases hae : a = e
        · subst hae
          exact (hself _).2 h3.symm
        · exact (hbelow _ _ hae).2 (h4 a ha hax hne' hae)
      · rintro ⟨hd, h1, h2, h4⟩
        have hr := (hself _).1 (h4 e Desc.refl hd (fun h => hx h.symm))
        obtain ⟨s, hs⟩ := (hLc x hx hd).2 ⟨h1, h2, hr.symm, fun a ha hax hne' hae => (hbelow _ _ hae).1 (h4 a ha hax hne')⟩
        exact ⟨s, (hbelow x s hx).2 hs⟩

/-- The iteration goes on with the children at the face. -/
theorem iterated_children {F : FaceScheme T} (hF : F.Lawful In) (he : T.Valid e) (hl : T.level e < T.maxLevel)
    (hf : f < F.numFaces e) {c : FaceCall T}
    (hc : c.tree = tree ∧ c.elem = e ∧ In c.elem c.face e f ∧ (c.isLeaf = true ↔ c.elem ∈ all) ∧
      ∃ k, PartBelow ls c.elem c.leaves k ∧ c.index = first + k)
    (hne : ∃ x ∈ ls, T.Desc e x) {logs : Nat → FaceRecord T}
    (hlogs : ∀ (k i : Nat), (F.childIdsAtFace e f)[k]? = some i →
      Iterated In tree all ls first (T.child e i) (F.childFace e f k) (logs k)) :
    Iterated In tree all ls first e f ((c, true) :: (List.range (F.numFaceChildren e f)).flatMap logs) := by
  have hlen := hF.childIds_length e f he hl hf
  have hsort := hF.childIds_sorted e f he hl hf
  have hids := hF.childIds_mem e f he hl hf
  have hcf := fun k i hk => hF.childFace e f k i he hl hf hk
  generalize hI : F.childIdsAtFace e f = ids at *
  have hnc : ∀ {k i : Nat}, ids[k]? = some i → i < T.nc e := fun hk => ((hids _).1 (List.mem_of_getElem? hk)).1
  have hvc : ∀ {k i : Nat}, ids[k]? = some i → T.Valid (T.child e i) := fun hk => T.valid_child _ _ he hl (hnc hk)
  have hdesc : ∀ {k i : Nat} {p : FaceCall T × Bool}, ids[k]? = some i → p ∈ logs k → T.Desc (T.child e i) p.1.elem :=
    fun hk hm => ((hlogs _ _ hk).calls _ _ hm).2.1
  have hmem : ∀ p, p ∈ (List.range (F.numFaceChildren e f)).flatMap logs ↔ ∃ k i, ids[k]? = some i ∧ p ∈ logs k := by
    intro p
    simp only [List.mem_flatMap, List.mem_range, ← hlen]
    constructor
    · rintro ⟨k, hk, hp⟩
      exact ⟨k, _, List.getElem?_eq_getElem hk, hp⟩
    · rintro ⟨k, i, hk, hp⟩
      exact ⟨k, (List.getElem?_eq_some_iff.1 hk).1, hp⟩
  have hinj : ∀ {k k' i : Nat}, ids[k]? = some i → ids[k']? = some i → k = k' := by
    intro k k' i h1 h2
    obtain ⟨a1, b1⟩ := List.getElem?_eq_some_iff.1 h1
    obtain ⟨a2, b2⟩ := List.getElem?_eq_some_iff.1 h2
    have hp := List.pairwise_iff_getElem.1 hsort
    rcases Nat.lt_trichotomy k k' with h | h | h
    · have := hp k k' a1 a2 h; omega
    · exact h
    · have := hp k' k a2 a1 h; omega
  have hck : ∀ {k i : Nat} {x : T.E} {s : Bool}, ids[k]? = some i → T.Desc (T.child e i) x →
      (Called ((List.range (F.numFaceChildren e f)).flatMap logs) x s ↔ Called (logs k) x s) := by
    intro k i x s hk hd
    constructor
    · rintro ⟨d, hd', hm⟩
      obtain ⟨k', j, hj, hm⟩ := (hmem _).1 hm
      have : T.Desc (T.child e j) x := hd' ▸ hdesc hj hm
      obtain rfl := desc_child_unique he hl (hnc hk) (hnc hj) hd this
      obtain rfl := hinj hk hj
      exact ⟨d, hd', hm⟩
    · rintro ⟨d, hd', hm⟩
      exact ⟨d, hd', (hmem _).2 ⟨k, i, hk, hm⟩⟩
  have hbetween : ∀ {i : Nat} {x a : T.E}, i < T.nc e → T.Desc (T.child e i) x → T.Desc e a → T.Desc a x → a ≠ e →
      T.Desc (T.child e i) a := by
    intro i x a hi hd ha hax hae
    rcases desc_cases he ha with h | ⟨_, j, hj, h⟩
    · exact absurd h hae
    · obtain rfl := desc_child_unique he hl hi hj hd (h.trans hax)
      exact h
  have hnotself : ∀ {i : Nat} {a : T.E}, i < T.nc e → T.Desc (T.child e i) a → a ≠ e := by
    intro i a hi hd h
    have h1 := hd.level_le (T.valid_child _ _ he hl hi)
    rw [T.level_child _ _ he hl hi, h] at h1
    omega
  -- a face of an element below a child that lies in the face lies in the face of the child
  have hface : ∀ {k i : Nat} {x : T.E} {g : Nat}, ids[k]? = some i → T.Desc (T.child e i) x →
      (In x g e f ↔ In x g (T.child e i) (F.childFace e f k)) := by
    intro k i x g hk hd
    constructor
    · intro h
      obtain ⟨h', h1, h2⟩ := hF.between x g (T.child e i) e f he (Desc.child_self hl (hnc hk)) hd h
      rwa [hF.unique _ _ _ _ _ he (Desc.child_self hl (hnc hk)) (hcf k i hk) h1]
    · intro h
      exact hF.trans _ _ _ _ _ _ h (hcf k i hk)
  refine iterated_step he hc hne ?_ ?_ ?_
  · intro d s hm
    obtain ⟨k, i, hk, hm⟩ := (hmem _).1 hm
    obtain ⟨h1, h2, h3, h4, h5⟩ := (hlogs k i hk).calls d s hm
    exact ⟨h1, (Desc.child_self hl (hnc hk)).trans h2, (hface hk h2).2 h3, h4, h5, hnotself (hnc hk) h2⟩
  · rw [List.pairwise_flatMap]
    constructor
    · intro k hk
      have hk := List.mem_range.1 hk
      rw [← hlen] at hk
      exact (hlogs k _ (List.getElem?_eq_getElem hk)).order
    · refine List.Pairwise.imp_of_mem ?_ List.pairwise_lt_range
      intro k k' hk hk' hlt x hx y hy
      have hk := List.mem_range.1 hk
      have hk' := List.mem_range.1 hk'
      rw [← hlen] at hk hk'
      have h1 := List.getElem?_eq_getElem hk
      have h2 := List.getElem?_eq_getElem hk'
      have h3 := List.pairwise_iff_getElem.1 hsort k k' hk hk' hlt
      exact Or.inl ((before_children he hl h3 (hnc h2)).desc (hdesc h1 hx) (hdesc h2 hy))
  · intro x hx hd
    rcases desc_cases he hd with h | ⟨_, i, hi, hdi⟩
    · exact absurd h hx
    · by_cases hin : i ∈ ids
      · obtain ⟨k, hk⟩ := List.getElem?_of_mem hin
        have key := (hlogs k i hk).called x
        constructor
        · rintro ⟨s, hs⟩
          obtain ⟨_, ⟨g, hg⟩, k3, k4⟩ := key.1 ⟨s, (hck hk hdi).1 hs⟩
          refine ⟨⟨g, (hface hk hdi).2 hg⟩, k3, rfl, ?_⟩
          intro a ha hax hne' hae
          have hda := hbetween hi hdi ha hax hae
          exact (hck hk hda).2 (k4 a hda hax hne')
        · rintro ⟨⟨g, hg⟩, k3, _, k4⟩
          obtain ⟨s, hs⟩ := key.2 ⟨hdi, ⟨g, (hface hk hdi).1 hg⟩, k3, by
            intro a hda hax hne'
            exact (hck hk hda).1 (k4 a ((Desc.child_self hl hi).trans hda) hax hne' (hnotself hi hda))⟩
          exact ⟨s, (hck hk hdi).2 hs⟩
      · constructor
        · rintro ⟨s, d, hd', hm⟩
          obtain ⟨k, j, hj, hm⟩ := (hmem _).1 hm
          have : T.Desc (T.child e j) x := hd' ▸ hdesc hj hm
          obtain rfl := desc_child_unique he hl hi (hnc hj) hdi this
          exact absurd (List.mem_of_getElem? hj) hin
        · rintro ⟨⟨g, hg⟩, _⟩
          obtain ⟨h', h1, _⟩ := hF.between x g (T.child e i) e f he (Desc.child_self hl hi) hdi hg
          exact absurd ((hids i).2 ⟨hi, h', h1⟩) hin

end

/-! ### The recursion -/

theorem isLeafOrGhost_spec {S : Scheme T} (hS : S.Lawful) {all : List T.E} (ho : T.Ordered all) (hne : all ≠ []) {e : T.E}
    (he : T.Valid e) : ∃ b, isLeafOrGhost S all e = some b ∧ (b = true ↔ e ∈ all) := by
  rw [isLeafOrGhost]
  rcases arrayFind_spec hS ho hne he with ⟨h1, h2⟩ | ⟨k, h1, h2⟩
  · exact ⟨false, by rw [h1]; rfl, by simp [h2]⟩
  · refine ⟨true, ?_, by simp [List.mem_of_getElem? h2]⟩
    rw [h1]
    simp

/-- A leaf among the leaves below it is the only one. -/
theorem leaf_below {all view : List T.E} {e : T.E} (ho : T.Ordered all) (hs : view.Sublist all) (hm : e ∈ all)
    (hd : ∀ x ∈ view, T.Desc e x) : ∀ x ∈ view, x = e := by
  intro x hx
  have hx' := hs.subset hx
  obtain ⟨i, hi⟩ := List.getElem?_of_mem hx'
  obtain ⟨j, hj⟩ := List.getElem?_of_mem hm
  rcases Nat.lt_trichotomy i j with hlt | heq | hlt
  · exact absurd (hd x hx) (Ordered.before ho hi hj hlt).not_desc.2
  · subst heq; rw [hi] at hj; exact Option.some.inj hj
  · exact absurd (hd x hx) (Ordered.before ho hj hi hlt).not_desc.1

theorem iterateFaces_spec {S : Scheme T} (hS : S.Lawful) {F : FaceScheme T} (hF : F.Lawful In) (callback : FaceFn T)
    (ltreeid : Nat) {all ls : List T.E} (ho : T.Ordered all) (hsub : ls.Sublist all) (first : Nat) :
    ∀ {n : Nat} {e : T.E} {f : Nat} {view : List T.E} {k : Nat} (h : FaceRecord T), T.maxLevel - T.level e = n → T.Valid e →
    f < F.numFaces e → PartBelow ls e view k →
    ∃ log, iterateFaces S F callback ltreeid all e f view (first + k) h = some (h ++ log) ∧
      Iterated In ltreeid all ls first e f log ∧ Answered callback h log := by
  intro n
  induction n using Nat.strongRecOn with
  | _ n ih =>
  intro e f view k h hn he hf hp
  rw [iterateFaces]
  by_cases hlen : view.length = 0
  · rw [if_pos hlen]
    refine ⟨[], by simp, iterated_nil ?_, Answered.nil⟩
    rintro ⟨x, hx, hd⟩
    have := hp.mem.2 ⟨hx, hd⟩
    rw [List.length_eq_zero_iff.1 hlen] at this
    cases this
  · rw [if_neg hlen]
    obtain ⟨x0, hx0⟩ : ∃ x, view[0]? = some x := ⟨_, List.getElem?_eq_getElem (by omega)⟩
    have hx0m := List.mem_of_getElem? hx0
    have hvs : view.Sublist all := hp.sublist.trans hsub
    have hov := ho.sublist hvs
    have hne : ∃ x ∈ ls, T.Desc e x := ⟨x0, hp.mem.1 hx0m⟩
    have halln : all ≠ [] := fun h => by
      have := hvs.subset hx0m
      rw [h] at this
      cases this
    obtain ⟨b, hb1, hb2⟩ := isLeafOrGhost_spec hS ho halln he
    have hview : ∀ x ∈ view, T.Desc e x := fun x hx => (hp.mem.1 hx).2
    have hproper : b = false → ∀ x ∈ view, T.Desc e x ∧ x ≠ e := by
      intro hb x hx
      refine ⟨hview x hx, fun hxe => ?_⟩
      have := hb2.2 (hxe ▸ hvs.subset hx)
      rw [hb] at this
      cases this
    have hck : checkLeaves S all e view b = some () := by
      cases b with
      | true => rfl
      | false =>
        have hr0 : rd view 0 = some x0 := rd_cast (k := 0) hx0
        obtain ⟨b', c1, c2⟩ := isLeafOrGhost_spec hS ho halln (ho.1 x0 (hvs.subset hx0m))
        have hb' : b' = true := c2.2 (hvs.subset hx0m)
        have hlev : T.level e < T.level x0 := by
          obtain ⟨d1, d2⟩ := hproper rfl x0 hx0m
          rcases Nat.lt_or_ge (T.level e) (T.level x0) with h | h
          · exact h
          · exact absurd (d1.eq_of_level he h) d2
        rw [checkLeaves, if_neg (by simp), hr0]
        simp only [Option.bind_eq_bind, Option.bind_some, c1]
        rw [assertO_true hb', assertO_true hlev]
        simp only [Option.bind_some]
        rw [assertO_true]
        intro x hx
        exact (hS.isAncestor e x he (hov.1 x hx)).2 (hview x hx)
    rw [hb1]
    simp only [Option.bind_eq_bind, Option.bind_some]
    rw [hck]
    simp only [Option.bind_some]
    generalize hcd : (⟨ltreeid, e, f, b, view, first + k⟩ : FaceCall T) = c
    have hc : c.tree = ltreeid ∧ c.elem = e ∧ In c.elem c.face e f ∧ (c.isLeaf = true ↔ c.elem ∈ all) ∧
        ∃ k, PartBelow ls c.elem c.leaves k ∧ c.index = first + k := by
      subst hcd
      exact ⟨rfl, rfl, hF.refl e f he hf, hb2, k, hp, rfl⟩
    have hans := Answered.single (callback := callback) (h := h) c
    generalize hr : callback h c = r at hans ⊢
    -- the iteration ends at `e`
    have hstop : (∀ x, x ≠ e → T.Desc e x → (∃ y ∈ ls, T.Desc x y) → r = true → False) →
        Iterated In ltreeid all ls first e f [(c, r)] := by
      intro hs
      refine iterated_step he hc hne (by intro d s hm; cases hm) List.Pairwise.nil ?_
      intro x hx hd
      constructor
      · rintro ⟨s, d, _, hm⟩; cases hm
      · rintro ⟨_, h2, h3, _⟩
        exact (hs x hx hd h2 h3).elim
    by_cases hend : (!r) = true ∨ b = true
    · rw [if_pos hend]
      refine ⟨[(c, r)], rfl, hstop ?_, hans⟩
      intro x hx hd ⟨y, hy, hxy⟩ hrt
      rcases hend with h1 | h1
      · rw [hrt] at h1; cases h1
      · have hym := hp.mem.2 ⟨hy, hd.trans hxy⟩
        have hye := leaf_below ho hvs (hb2.1 h1) hview y hym
        subst hye
        have h1 := hd.level_le he
        have h2 := hxy.level_le (hd.valid he)
        exact hx (hd.eq_of_level he (by omega))
    · rw [if_neg hend]
      have hr' : r = true := by
        cases r with
        | true => rfl
        | false => exact absurd (Or.inl rfl) hend
      have hb' : b = false := by
        cases b with
        | false => rfl
        | true => exact absurd (Or.inr rfl) hend
      have hpr := hproper hb'
      have hl : T.level e < T.maxLevel := by
        obtain ⟨d1, d2⟩ := hpr x0 hx0m
        rcases Nat.lt_or_ge (T.level e) (T.level x0) with h | h
        · exact lt_of_lt_of_le h (T.level_le x0 (hov.1 x0 hx0m))
        · exact absurd (d1.eq_of_level he h) d2
      obtain ⟨offs, ho1, _, _, _, ho5⟩ := splitArray_spec hS he hov hpr
      rw [ho1]
      simp only [Option.bind_some]
      have hids := hF.childIds_mem e f he hl hf
      have hlenI := hF.childIds_length e f he hl hf
      obtain ⟨logs, l1, l2⟩ := fold_log (n := F.numFaceChildren e f)
        (step := fun h iface => do
          let ci ← (F.childIdsAtFace e f)[iface]?
          assertO (ci < T.nc e + 1)
          let indexa ← offs[ci]?
          let indexb ← offs[ci + 1]?
          if indexa < indexb then do
            let child ← (F.childrenAtFace e f)[iface]?
            iterateFaces S F callback ltreeid all child (F.childFace e f iface)
              ((view.drop indexa).take (indexb - indexa)) (indexa + (first + k)) h
          else some h)
        (P := fun j h' log => ∀ i, (F.childIdsAtFace e f)[j]? = some i →
          Iterated In ltreeid all ls first (T.child e i) (F.childFace e f j) log ∧ Answered callback h' log)
        (by
          intro j hj h'
          rw [← hlenI] at hj
          have hi := List.getElem?_eq_getElem hj
          generalize (F.childIdsAtFace e f)[j] = i at hi
          have hinc := ((hids i).1 (List.mem_of_getElem? hi)).1
          obtain ⟨a, b', ha, hb, hab, hbl, hs⟩ := ho5 i hinc
          have hvi := T.valid_child _ _ he hl hinc
          have hcf := hF.childFace e f j i he hl hf hi
          have hpc := hp.child hl hinc hab hbl hs
          have hchild : (F.childrenAtFace e f)[j]? = some (T.child e i) := by
            rw [hF.children e f he hl hf, List.getElem?_map, hi]; rfl
          simp only [hi, Option.bind_eq_bind, Option.bind_some, assertO_true (show i < T.nc e + 1 by omega), ha, hb]
          by_cases hlt : a < b'
          · rw [if_pos hlt, hchild]
            simp only [Option.bind_some]
            have hlc := T.level_child _ _ he hl hinc
            obtain ⟨log, k1, k2, k3⟩ := ih (T.maxLevel - T.level (T.child e i)) (by omega) h' rfl hvi
              (hF.bounds _ _ _ _ hcf).1 hpc
            rw [show first + (a + k) = a + (first + k) by omega] at k1
            refine ⟨log, k1, ?_⟩
            intro i' hi'
            cases hi'
            exact ⟨k2, k3⟩
          · rw [if_neg hlt]
            refine ⟨[], by simp, ?_⟩
            intro i' hi'
            cases hi'
            refine ⟨iterated_nil ?_, Answered.nil⟩
            rintro ⟨x, hx, hd⟩
            have := hpc.mem.2 ⟨hx, hd⟩
            rw [show b' - a = 0 by omega] at this
            simp at this) (h ++ [(c, r)])
      refine ⟨(c, r) :: (List.range (F.numFaceChildren e f)).flatMap logs, ?_, ?_, ?_⟩
      · refine Eq.trans l1 ?_
        simp
      · subst hr'
        refine iterated_children hF he hl hf hc hne ?_
        intro j i hi
        have hj : j < F.numFaceChildren e f := by rw [← hlenI]; exact (List.getElem?_eq_some_iff.1 hi).1
        exact (l2 j hj i hi).1
      · refine Answered.append (l1 := [(c, r)]) hans (Answered.flatMap ?_)
        intro j hj
        have hj' := hj
        rw [← hlenI] at hj'
        exact (l2 j hj _ (List.getElem?_eq_getElem hj')).2

end T8.FaceIterate
