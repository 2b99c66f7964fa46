/-
Lemmas for C55: the owners at a face of the neighbor of an element and of the neighbors of its ancestors.
-/
import Verif.Spec.Ghost
import Verif.Lemmas.GhostAdd
import Verif.Lemmas.FaceLift
import Verif.Props.Owner

namespace T8.Ghost
open T8.RTree T8.Spec T8.GhostSpec T8.Owner
open T8.BalanceSpec (Neighbor Neighbors)

variable {T : Nat → RTree} {P K L : Nat}

/-- The functions of the classes fit together, and those of different trees, too. -/
structure Env.Lawful (X : Env T) (In : ∀ g, (T g).E → Nat → (T g).E → Nat → Prop) (K L : Nat) : Prop where
  scheme : ∀ g, (X.scheme g).Lawful
  faces : ∀ g, (X.faces g).Lawful (In g)
  parentFace : ∀ g e f, (T g).Valid e → 0 < (T g).level e → f < (X.faces g).numFaces e →
    ∀ k, X.parentFace g e f = some k ↔ In g e f ((T g).parent e) k
  /-- The maximal number of faces is that of the element and its descendants. -/
  maxNumFaces : ∀ g a e, (T g).Valid a → (T g).Desc a e → (X.faces g).numFaces e ≤ X.maxNumFaces g a
  parentFace_lt : ∀ g e f k, (T g).Valid e → f < (X.faces g).numFaces e → X.parentFace g e f = some k → k < X.maxNumFaces g e
  neighbors : Neighborhood X.neighbor In (fun g => (X.faces g).numFaces) K L

variable {X : Env T} {In : ∀ g, (T g).E → Nat → (T g).E → Nat → Prop} {D : DistForest T P K L}

/-- The neighbor of a descendant of `e` is inside of `e` or of the neighbor of `e` at the face that contains the face of the
descendant. -/
theorem Env.Lawful.up (hX : X.Lawful In K L) {g : Nat} (hg : g < K) {e : (T g).E} (he : (T g).Valid e) {x : (T g).E} (hx : (T g).Valid x)
    (hxl : (T g).level x ≤ L) (hd : (T g).Desc e x) {f : Nat} (hf : f < (X.faces g).numFaces x) {h : Nat} {n : (T h).E} {j : Nat}
    (hn : X.neighbor g x f = some ⟨h, n, j⟩) :
    (∃ ht : g = h, (T h).Desc (ht ▸ e) n) ∨
      ∃ f' m k, f' < (X.faces g).numFaces e ∧ X.neighbor g e f' = some ⟨h, m, k⟩ ∧ (T h).Desc m n ∧ In h n j m k ∧ In g x f e f' := by
  have hle := hd.level_le he
  induction hk : (T g).level x - (T g).level e generalizing x f h n j with
  | zero =>
    have : x = e := hd.eq_of_level he (by omega)
    subst this
    obtain ⟨_, h2, _, h4⟩ := hX.neighbors.valid g x f _ hg hx hxl hf hn
    exact Or.inr ⟨f, n, j, hf, hn, Desc.refl, (hX.faces h).refl n j h2 h4, (hX.faces g).refl x f hx hf⟩
  | succ k ih =>
    have hl0 : 0 < (T g).level x := by omega
    have hlp := (T g).level_parent x hx hl0
    have hvp := (T g).valid_parent x hx hl0
    have hdp := (LeafNeighbor.desc_parent he hx (by omega)).1 hd
    by_cases hin : ∃ f', In g x f ((T g).parent x) f'
    · obtain ⟨f', hin⟩ := hin
      have hf' := ((hX.faces g).bounds _ _ _ _ hin).2
      obtain ⟨h1, h2⟩ := hX.neighbors.outer g x f f' hg hx hxl hf hl0 hin
      cases hm : X.neighbor g ((T g).parent x) f' with
      | none => rw [h1 hm] at hn; cases hn
      | some m =>
        obtain ⟨h', m, k'⟩ := m
        obtain ⟨n', j', e1, e2, e3⟩ := h2 h' m k' hm
        rw [hn] at e1
        cases e1
        obtain ⟨_, hnv, hnl, _⟩ := hX.neighbors.valid g x f _ hg hx hxl hf hn
        replace hnl : (T h).level n = (T g).level x := hnl
        have hmn : (T h).Desc m n := by
          rw [← e2]
          have := Desc.child_self (T := T h) (a := (T h).parent n) (i := (T h).childId n)
            (by have h1 := (T h).level_parent n hnv (by omega); have h2 := (T h).level_le n hnv; omega) ((T h).childId_lt n hnv (by omega))
          rwa [(T h).child_parent n hnv (by omega)] at this
        rcases ih hvp (by omega) hdp hf' hm (by omega) (by omega) with ⟨rfl, hc⟩ | ⟨f'', m', k'', a1, a2, a3, a4, a5⟩
        · exact Or.inl ⟨rfl, hc.trans hmn⟩
        · exact Or.inr ⟨f'', m', k'', a1, a2, a3.trans hmn, (hX.faces h).trans _ _ _ _ _ _ e3 a4, (hX.faces g).trans _ _ _ _ _ _ hin a5⟩
    · obtain ⟨n', j', e1, e2⟩ := hX.neighbors.inner g x f hg hx hxl hf hl0 hin
      rw [hn] at e1
      cases e1
      obtain ⟨_, hnv, hnl, _⟩ := hX.neighbors.valid g x f _ hg hx hxl hf hn
      replace hnl : (T g).level n' = (T g).level x := hnl
      replace hnv : (T g).Valid n' := hnv
      refine Or.inl ⟨rfl, (LeafNeighbor.desc_parent he hnv (by omega)).2 ?_⟩
      show (T g).Desc e ((T g).parent n')
      rw [e2]
      exact hdp

/-- The neighbor of a descendant at a part of a face is a descendant of the neighbor. -/
theorem Env.Lawful.down (hX : X.Lawful In K L) {g : Nat} (hg : g < K) {e : (T g).E} (he : (T g).Valid e) {x : (T g).E} (hx : (T g).Valid x)
    (hxl : (T g).level x ≤ L) (hd : (T g).Desc e x) {f f' : Nat} (hin : In g x f e f') {h : Nat} {m : (T h).E} {k : Nat}
    (hm : X.neighbor g e f' = some ⟨h, m, k⟩) : ∃ n j, X.neighbor g x f = some ⟨h, n, j⟩ ∧ (T h).Desc m n ∧ In h n j m k := by
  have hle := hd.level_le he
  have hf := ((hX.faces g).bounds _ _ _ _ hin).1
  induction hk : (T g).level x - (T g).level e generalizing x f with
  | zero =>
    have : x = e := hd.eq_of_level he (by omega)
    subst this
    have := (hX.faces g).unique x f f' x f' hx Desc.refl hin ((hX.faces g).refl x f' hx ((hX.faces g).bounds _ _ _ _ hin).2)
    subst this
    obtain ⟨_, h2, _, h4⟩ := hX.neighbors.valid g x _ _ hg hx hxl hf hm
    exact ⟨m, k, hm, Desc.refl, (hX.faces h).refl m k h2 h4⟩
  | succ l ih =>
    have hl0 : 0 < (T g).level x := by omega
    have hlp := (T g).level_parent x hx hl0
    have hvp := (T g).valid_parent x hx hl0
    have hdp := (LeafNeighbor.desc_parent he hx (by omega)).1 hd
    have hpx : (T g).Desc ((T g).parent x) x := (LeafNeighbor.desc_parent hvp hx (by omega)).2 Desc.refl
    obtain ⟨i, h2, h1⟩ := (hX.faces g).between x f _ e f' he hdp hpx hin
    obtain ⟨n', j', a1, a2, a3⟩ := ih hvp (by omega) hdp h2 (by omega) ((hX.faces g).bounds _ _ _ _ h2).1 (by omega)
    obtain ⟨n, j, b1, b2, b3⟩ := (hX.neighbors.outer g x f i hg hx hxl hf hl0 h1).2 h n' j' a1
    obtain ⟨_, hnv, hnl, _⟩ := hX.neighbors.valid g x f _ hg hx hxl hf b1
    replace hnl : (T h).level n = (T g).level x := hnl
    replace hnv : (T h).Valid n := hnv
    have hpn := (LeafNeighbor.desc_parent ((T h).valid_parent n hnv (by omega)) hnv (by
      have := (T h).level_parent n hnv (by omega); omega)).2 Desc.refl
    rw [b2] at hpn
    exact ⟨n, j, b1, a2.trans hpn, (hX.faces h).trans _ _ _ _ _ _ b3 a3⟩

/-! ### Owners -/

/-- In a forest whose trees are covered all elements of the finest level are covered. -/
theorem covered (hc : D.Complete) {g : Nat} (hg : g < K) {d : (T g).E} (hd : (T g).Valid d) (hl : (T g).level d = L) :
    ∃ q, D.Covers q g d := by
  obtain ⟨q, hq⟩ := C27_exists hc hg hd hl.le
  exact ⟨q, (owns_of_level hl).1 hq⟩

/-- The owners at a face of a part are owners at the face. -/
theorem ownsAtFace_mono {h : Nat} {F : FaceScheme (T h)} (hF : F.Lawful (In h)) {n m : (T h).E} {j k : Nat} (hd : (T h).Desc m n)
    (hin : In h n j m k) {q : Nat} (hq : D.OwnsAtFace (In h) q n j) : D.OwnsAtFace (In h) q m k := by
  obtain ⟨d, i, h1, h2, h3, h4⟩ := hq
  exact ⟨d, i, hd.trans h1, h2, hF.trans _ _ _ _ _ _ h3 hin, h4⟩

/-- The owners at a face of a descendant own descendants. -/
theorem ownsDescendant_of {h : Nat} {n e : (T h).E} {j : Nat} (hd : (T h).Desc e n) {q : Nat} (hq : D.OwnsAtFace (In h) q n j) :
    D.OwnsDescendant q h e := by
  obtain ⟨d, i, h1, h2, _, h4⟩ := hq
  exact ⟨d, hd.trans h1, h2, h4⟩

theorem leaf_facts {p : Nat} (hp : p < P) {y : Σ g, (T g).E} (hy : y ∈ D.localLeaves p) :
    y.1 < K ∧ (T y.1).Valid y.2 ∧ (T y.1).level y.2 ≤ L := by
  obtain ⟨j, _, _, j3⟩ := (mem_local hp).1 hy
  exact ⟨(leaf_props j3).1, (leaf_props j3).2.1, (leaf_props j3).2.2.1⟩

/-- The processes that own a descendant of the finest level at the face are those with a leaf at the face. -/
theorem ownsAtFace_iff {h : Nat} (hh : h < K) {F : FaceScheme (T h)} (hF : F.Lawful (In h)) {n : (T h).E} (hn : (T h).Valid n) {j : Nat}
    (hj : j < F.numFaces n) (hl : (T h).level n ≤ L) {q : Nat} :
    D.OwnsAtFace (In h) q n j ↔ q < P ∧ ∃ y, ⟨h, y⟩ ∈ D.localLeaves q ∧ ((T h).Desc y n ∨ ((T h).Desc n y ∧ ∃ k, In h y k n j)) := by
  have hL := D.maxLevel h hh
  constructor
  · rintro ⟨d, i, h1, h2, h3, hq, y, hy, hyd⟩
    obtain ⟨_, hyv, hyl⟩ := leaf_facts hq hy
    refine ⟨hq, y, hy, ?_⟩
    rcases Nat.le_total ((T h).level y) ((T h).level n) with hle | hle
    · exact Or.inl (desc_comparable hyv hn hyd h1 hle)
    · have hny := desc_comparable hn hyv h1 hyd hle
      obtain ⟨k, hk, _⟩ := hF.between d i y n j hn hny hyd h3
      exact Or.inr ⟨hny, k, hk⟩
  · rintro ⟨hq, y, hy, hyn⟩
    obtain ⟨_, hyv, hyl⟩ := leaf_facts hq hy
    rcases hyn with hyn | ⟨hny, k, hk⟩
    · obtain ⟨a1, a2, ⟨i, a3⟩, _⟩ := hF.firstDescendantFace n j L hn hj hl hL
      exact ⟨_, i, a1, a2, a3, hq, y, hy, hyn.trans a1⟩
    · have hk' := (hF.bounds _ _ _ _ hk).1
      obtain ⟨a1, a2, ⟨i, a3⟩, _⟩ := hF.firstDescendantFace y k L hyv hk' hyl hL
      exact ⟨_, i, hny.trans a1, a2, hF.trans _ _ _ _ _ _ a3 hk, hq, y, hy, a1⟩

/-- The processes a leaf must be sent to are the owners at the faces of its neighbors. -/
theorem touches_iff (hX : X.Lawful In K L) {g : Nat} (hg : g < K) {x : (T g).E} (hx : (T g).Valid x) (hxl : (T g).level x ≤ L) {q : Nat} :
    Touches X.neighbor In (fun g => (X.faces g).numFaces) D q ⟨g, x⟩ ↔
      ∃ f n, f < (X.faces g).numFaces x ∧ X.neighbor g x f = some n ∧ D.OwnsAtFace (In n.tree) q n.elem n.face := by
  have key : ∀ f n, f < (X.faces g).numFaces x → X.neighbor g x f = some n → (D.OwnsAtFace (In n.tree) q n.elem n.face ↔
      q < P ∧ ∃ y, ⟨n.tree, y⟩ ∈ D.localLeaves q ∧
        ((T n.tree).Desc y n.elem ∨ ((T n.tree).Desc n.elem y ∧ ∃ k, In n.tree y k n.elem n.face))) := by
    intro f n hf hn
    obtain ⟨h1, h2, h3, h4⟩ := hX.neighbors.valid g x f n hg hx hxl hf hn
    exact ownsAtFace_iff h1 (hX.faces _) h2 h4 (by omega)
  constructor
  · rintro ⟨hq, ⟨h, y⟩, hy, f, n, hf, hn, ht, hyn⟩
    obtain ⟨h', n, j⟩ := n
    obtain rfl : h' = h := ht
    exact ⟨f, _, hf, hn, (key f _ hf hn).2 ⟨hq, y, hy, hyn⟩⟩
  · rintro ⟨f, n, hf, hn, ho⟩
    obtain ⟨hq, y, hy, hyn⟩ := (key f n hf hn).1 ho
    exact ⟨hq, ⟨n.tree, y⟩, hy, f, n, hf, hn, rfl, hyn⟩

end T8.Ghost
