/-
Lemmas for C55: one call of the callback of the search.
-/
import Verif.Lemmas.GhostOwner

namespace T8.Ghost
open T8.RTree T8.Spec T8.GhostSpec T8.Owner T8.Search
open T8.BalanceSpec (Neighbor Neighbors)

variable {T : Nat → RTree} {P K L : Nat} {X : Env T} {In : ∀ g, (T g).E → Nat → (T g).E → Nat → Prop} {D : DistForest T P K L}

/-- The pair of bounds at position `i` of an array, and what they are bounds of. -/
def Pair (P : Nat) (b : List (Option Int)) (i : Nat) (O : Nat → Prop) : Prop :=
  ∃ lo up : Nat, b[2 * i]? = some (some (lo : Int)) ∧ b[2 * i + 1]? = some (some (up : Int)) ∧ up < P ∧ ∀ q, O q → lo ≤ q ∧ q ≤ up

/-- Some pair of numbers was written at position `i`. -/
def Written (b : List (Option Int)) (i : Nat) : Prop := ∃ lo up : Int, b[2 * i]? = some (some lo) ∧ b[2 * i + 1]? = some (some up)

theorem Pair.written {b : List (Option Int)} {i : Nat} {O : Nat → Prop} (h : Pair P b i O) : Written b i := by
  obtain ⟨lo, up, h1, h2, _⟩ := h
  exact ⟨lo, up, h1, h2⟩

/-- The bounds for an element: for its owners, and for the owners at its faces on the other side. -/
structure GoodBounds (X : Env T) (In : ∀ g, (T g).E → Nat → (T g).E → Nat → Prop) (D : DistForest T P K L) (mf g : Nat) (a : (T g).E)
    (b : List (Option Int)) : Prop where
  length : b.length = 2 * (mf + 1)
  elem : Pair P b mf (fun q => D.OwnsDescendant q g a)
  written : ∀ f, f < (X.faces g).numFaces a → Written b f
  face : ∀ f n, f < (X.faces g).numFaces a → X.neighbor g a f = some n → Pair P b f (fun q => D.OwnsAtFace (In n.tree) q n.elem n.face)

/-- The array of the parent: what is known about the bounds that are used for the element `e`. -/
structure Usable (X : Env T) (In : ∀ g, (T g).E → Nat → (T g).E → Nat → Prop) (D : DistForest T P K L) (mf g : Nat) (e : (T g).E)
    (b : List (Option Int)) : Prop where
  elem : Pair P b mf (fun q => D.OwnsDescendant q g e)
  face : ∀ f k, f < (X.faces g).numFaces e → X.parentFace g e f = some k → Written b k ∧
    ∀ n, X.neighbor g e f = some n → Pair P b k (fun q => D.OwnsAtFace (In n.tree) q n.elem n.face)
  inner : ∀ f, f < (X.faces g).numFaces e → X.parentFace g e f = none →
    ∀ n, X.neighbor g e f = some n → Pair P b mf (fun q => D.OwnsAtFace (In n.tree) q n.elem n.face)

theorem Pair.mono {b : List (Option Int)} {i : Nat} {O O' : Nat → Prop} (h : Pair P b i O) (hO : ∀ q, O' q → O q) : Pair P b i O' := by
  obtain ⟨lo, up, h1, h2, h3, h4⟩ := h
  exact ⟨lo, up, h1, h2, h3, fun q hq => h4 q (hO q hq)⟩

/-- The bounds of the parent can be used. -/
theorem GoodBounds.usable (hX : X.Lawful In K L) {g : Nat} (hg : g < K) {e : (T g).E} (he : (T g).Valid e) (hle : (T g).level e ≤ L)
    (hl : 0 < (T g).level e) {mf : Nat}
    {b : List (Option Int)} (h : GoodBounds X In D mf g ((T g).parent e) b) : Usable X In D mf g e b := by
  have hd : (T g).Desc ((T g).parent e) e := by
    have := Desc.child_self (T := T g) (a := (T g).parent e) (i := (T g).childId e)
      (by have h1 := (T g).level_parent e he hl; have h2 := (T g).level_le e he; omega) ((T g).childId_lt e he hl)
    rwa [(T g).child_parent e he hl] at this
  have hvp := (T g).valid_parent e he hl
  refine ⟨h.elem.mono ?_, ?_, ?_⟩
  · rintro q ⟨d, h1, h2, h3⟩
    exact ⟨d, hd.trans h1, h2, h3⟩
  · intro f k hf hk
    have hin := (hX.parentFace g e f he hl hf k).1 hk
    have hk' := ((hX.faces g).bounds _ _ _ _ hin).2
    refine ⟨h.written k hk', ?_⟩
    intro n hn
    obtain ⟨h1, h2⟩ := hX.neighbors.outer g e f k hg he hle hf hl hin
    cases hm : X.neighbor g ((T g).parent e) k with
    | none => rw [h1 hm] at hn; cases hn
    | some m =>
      obtain ⟨h', m, k'⟩ := m
      obtain ⟨n', j', e1, e2, e3⟩ := h2 h' m k' hm
      rw [hn] at e1
      obtain ⟨_, v2, v3, _⟩ := hX.neighbors.valid g e f n hg he hle hf hn
      obtain rfl := Option.some.inj e1
      refine (h.face k _ hk' hm).mono ?_
      intro q hq
      refine ownsAtFace_mono (hX.faces h') ?_ e3 hq
      replace v2 : (T h').Valid n' := v2
      replace v3 : (T h').level n' = (T g).level e := v3
      rw [← e2]
      have := Desc.child_self (T := T h') (a := (T h').parent n') (i := (T h').childId n')
        (by have h1 := (T h').level_parent n' v2 (by omega); have h2 := (T h').level_le n' v2; omega) ((T h').childId_lt n' v2 (by omega))
      rwa [(T h').child_parent n' v2 (by omega)] at this
  · intro f hf hk n hn
    have hno : ¬ ∃ f', In g e f ((T g).parent e) f' := by
      rintro ⟨f', hin⟩
      rw [(hX.parentFace g e f he hl hf f').2 hin] at hk
      cases hk
    obtain ⟨n', j', e1, e2⟩ := hX.neighbors.inner g e f hg he hle hf hl hno
    rw [hn] at e1
    obtain ⟨_, v2, v3, _⟩ := hX.neighbors.valid g e f n hg he hle hf hn
    obtain rfl := Option.some.inj e1
    replace v2 : (T g).Valid n' := v2
    replace v3 : (T g).level n' = (T g).level e := v3
    refine h.elem.mono ?_
    intro q hq
    refine ownsDescendant_of ?_ hq
    show (T g).Desc ((T g).parent e) n'
    rw [← e2]
    have := Desc.child_self (T := T g) (a := (T g).parent n') (i := (T g).childId n')
      (by have h1 := (T g).level_parent n' v2 (by omega); have h2 := (T g).level_le n' v2; omega) ((T g).childId_lt n' v2 (by omega))
    rwa [(T g).child_parent n' v2 (by omega)] at this

/-- The first array: all processes. -/
def fullBounds (P mf : Nat) : List (Option Int) := (List.replicate (mf + 1) [some (0 : Int), some ((P : Int) - 1)]).flatten

theorem fullBounds_length {mf : Nat} : (fullBounds P mf).length = 2 * (mf + 1) := by
  simp [fullBounds]; omega

theorem fullBounds_get {mf i : Nat} (h : i ≤ mf) : (fullBounds P mf)[2 * i]? = some (some 0) ∧
    (fullBounds P mf)[2 * i + 1]? = some (some ((P : Int) - 1)) := by
  have : ∀ (n i : Nat), i < n → (List.replicate n [some (0 : Int), some ((P : Int) - 1)]).flatten[2 * i]? = some (some 0) ∧
      (List.replicate n [some (0 : Int), some ((P : Int) - 1)]).flatten[2 * i + 1]? = some (some ((P : Int) - 1)) := by
    intro n
    induction n with
    | zero => intro i h; omega
    | succ n ih =>
      intro i hi
      rw [List.replicate_succ, List.flatten_cons]
      cases i with
      | zero => simp
      | succ i =>
        have := ih i (by omega)
        rw [show 2 * (i + 1) = 2 * i + 1 + 1 by omega]
        simpa using this
  exact this (mf + 1) i (by omega)

theorem fullBounds_pair {mf i : Nat} (h : i ≤ mf) (hP : 0 < P) {O : Nat → Prop} (hO : ∀ q, O q → q < P) : Pair P (fullBounds P mf) i O := by
  obtain ⟨h1, h2⟩ := fullBounds_get (P := P) h
  refine ⟨0, P - 1, h1, ?_, by omega, fun q hq => ⟨by omega, by have := hO q hq; omega⟩⟩
  rw [h2]; congr 2; omega

theorem fullBounds_usable (hX : X.Lawful In K L) (hP : 0 < P) {g : Nat} {e : (T g).E} (he : (T g).Valid e) :
    Usable X In D (X.maxNumFaces g e) g e (fullBounds P (X.maxNumFaces g e)) where
  elem := fullBounds_pair le_rfl hP (fun q ⟨_, _, _, h⟩ => h.1)
  face f k hf hk := by
    have hk' := hX.parentFace_lt g e f k he hf hk
    refine ⟨⟨_, _, (fullBounds_get (P := P) (mf := X.maxNumFaces g e) (i := k) (by omega)).1, (fullBounds_get (P := P) (by omega)).2⟩, ?_⟩
    intro n _
    exact fullBounds_pair (by omega) hP (fun q ⟨_, _, _, _, _, h⟩ => h.1)
  inner f hf hk n _ := fullBounds_pair le_rfl hP (fun q ⟨_, _, _, _, _, h⟩ => h.1)

/-- What is assumed about the arrays and the forest. -/
structure Setting (X : Env T) (In : ∀ g, (T g).E → Nat → (T g).E → Nat → Prop) (D : DistForest T P K L) (p : Nat) : Prop where
  lawful : X.Lawful In K L
  complete : D.Complete
  arrays : Matches D X.tables
  /-- See C27: the array of first descendants is read behind its end otherwise. -/
  firstDescs : P < X.tables.firstDescs.length
  rank : X.rank = p
  process : p < P

section Call
variable {p : Nat} (hs : Setting X In D p) {g : Nat} (hg : g < K) {e : (T g).E} (he : (T g).Valid e) (hle : (T g).level e ≤ L)

include hs hg he hle in
/-- The owners at the neighbor's face. -/
theorem ownersAtNeighFace_spec {f : Nat} (hf : f < (X.faces g).numFaces e) {lo up : Int}
    (hb : ∀ n, X.neighbor g e f = some n → ∃ a b : Nat, lo = a ∧ up = b ∧ b < P ∧
      ∀ q, D.OwnsAtFace (In n.tree) q n.elem n.face → a ≤ q ∧ q ≤ b) :
    ∃ l, ownersAtNeighFace X g e f [lo, up] = some l ∧
      ∀ x, x ∈ l ↔ ∃ n, X.neighbor g e f = some n ∧ ∃ q : Nat, D.OwnsAtFace (In n.tree) q n.elem n.face ∧ x = q := by
  unfold ownersAtNeighFace
  cases hn : X.neighbor g e f with
  | none => exact ⟨[], rfl, by simp⟩
  | some n =>
    obtain ⟨a, b, rfl, rfl, h3, h4⟩ := hb n hn
    obtain ⟨v1, v2, v3, v4⟩ := hs.lawful.neighbors.valid g e f n hg he hle hf hn
    obtain ⟨l, k1, _, k3⟩ := C49_owners_partial hs.arrays (hs.lawful.scheme n.tree) (hs.lawful.faces n.tree) v1 v2 (by omega) v4
      (fun d _ hd hl _ => covered hs.complete v1 (hd.valid v2) hl) ⟨h3, Or.inr ⟨[], rfl⟩⟩ h4 (Or.inl hs.firstDescs)
    refine ⟨l, k1, fun x => ?_⟩
    rw [k3]
    simp

include hs hg he hle in
/-- The bounds of the owners at the neighbor's face. -/
theorem ownersAtNeighFaceBounds_spec {f : Nat} (hf : f < (X.faces g).numFaces e) {lo up : Int}
    (hb : ∀ n, X.neighbor g e f = some n → ∃ a b : Nat, lo = a ∧ up = b ∧ b < P ∧
      ∀ q, D.OwnsAtFace (In n.tree) q n.elem n.face → a ≤ q ∧ q ≤ b) :
    ∃ lo' up', ownersAtNeighFaceBounds X g e f lo up = some (lo', up') ∧
      (X.neighbor g e f = none → lo' ≠ up') ∧
      ∀ n, X.neighbor g e f = some n → ∃ a b : Nat, lo' = a ∧ up' = b ∧ b < P ∧
        ∀ q, D.OwnsAtFace (In n.tree) q n.elem n.face → a ≤ q ∧ q ≤ b := by
  unfold ownersAtNeighFaceBounds
  cases hn : X.neighbor g e f with
  | none => exact ⟨1, 0, rfl, by simp, by simp⟩
  | some n =>
    obtain ⟨a, b, rfl, rfl, h3, h4⟩ := hb n hn
    obtain ⟨v1, v2, v3, v4⟩ := hs.lawful.neighbors.valid g e f n hg he hle hf hn
    simp only
    split
    · refine ⟨a, b, rfl, by simp, ?_⟩
      intro n' hn'
      obtain rfl := Option.some.inj hn'
      exact ⟨a, b, rfl, rfl, h3, h4⟩
    · obtain ⟨a', b', k1, k2, k3, k4⟩ := C49_face_bounds_partial hs.arrays (hs.lawful.scheme n.tree) (hs.lawful.faces n.tree) v1 v2
        (by omega) v4 (fun d _ hd hl _ => covered hs.complete v1 (hd.valid v2) hl) h3 h4 (Or.inl hs.firstDescs)
      refine ⟨a', b', k1, by simp, ?_⟩
      intro n' hn'
      obtain rfl := Option.some.inj hn'
      exact ⟨a', b', rfl, rfl, (h4 b' k3).2.trans_lt h3, k4⟩

/-- Reading the bounds of the parent. -/
theorem read_bounds {mf : Nat} {b : List (Option Int)} (hb : Usable X In D mf g e b) {lo up : Int}
    (hlo : b[2 * mf]? = some (some lo)) (hup : b[2 * mf + 1]? = some (some up)) {f : Nat} (hf : f < (X.faces g).numFaces e) :
    ∃ l u, faceBounds X g e b lo up f = some (l, u) ∧
      ∀ n, X.neighbor g e f = some n → ∃ a b : Nat, l = a ∧ u = b ∧ b < P ∧
        ∀ q, D.OwnsAtFace (In n.tree) q n.elem n.face → a ≤ q ∧ q ≤ b := by
  unfold faceBounds
  cases hk : X.parentFace g e f with
  | none =>
    refine ⟨lo, up, rfl, fun n hn => ?_⟩
    obtain ⟨a, c, h1, h2, h3, h4⟩ := hb.inner f hf hk n hn
    rw [hlo] at h1
    rw [hup] at h2
    exact ⟨a, c, Option.some.inj (Option.some.inj h1), Option.some.inj (Option.some.inj h2), h3, h4⟩
  | some k =>
    obtain ⟨⟨l, u, h1, h2⟩, h3⟩ := hb.face f k hf hk
    refine ⟨l, u, ?_, fun n hn => ?_⟩
    · simp only [rdw, Nat.mul_comm k 2, h1, h2, Option.join_some, Option.bind_eq_bind, Option.bind_some, Option.pure_def]
    · obtain ⟨a, c, k1, k2, k3, k4⟩ := h3 n hn
      rw [h1] at k1
      rw [h2] at k2
      exact ⟨a, c, Option.some.inj (Option.some.inj k1), Option.some.inj (Option.some.inj k2), k3, k4⟩

theorem wr_pair {b : List (Option Int)} {i : Nat} (hi : 2 * i + 1 < b.length) (lo up : Int) :
    ∃ b1 b', wr b (2 * i) (some lo) = some b1 ∧ wr b1 (2 * i + 1) (some up) = some b' ∧ b'.length = b.length ∧
      b'[2 * i]? = some (some lo) ∧ b'[2 * i + 1]? = some (some up) ∧
      ∀ j, j ≠ i → b'[2 * j]? = b[2 * j]? ∧ b'[2 * j + 1]? = b[2 * j + 1]? := by
  refine ⟨b.set (2 * i) (some lo), (b.set (2 * i) (some lo)).set (2 * i + 1) (some up), ?_, ?_, by simp, ?_, ?_, ?_⟩
  · rw [wr, if_pos (by omega)]
  · rw [wr, if_pos (by simpa using hi)]
  · rw [List.getElem?_set_ne (by omega), List.getElem?_set_self (by omega)]
  · rw [List.getElem?_set_self (by simpa using hi)]
  · intro j hj
    constructor
    · rw [List.getElem?_set_ne (by omega), List.getElem?_set_ne (by omega)]
    · rw [List.getElem?_set_ne (by omega), List.getElem?_set_ne (by omega)]

variable {mf : Nat} (hmf : (X.faces g).numFaces e ≤ mf) {b : List (Option Int)} (hb : Usable X In D mf g e b) {lo up : Int}
  (hlo : b[2 * mf]? = some (some lo)) (hup : b[2 * mf + 1]? = some (some up))

include hs hg he hle hmf hb hlo hup

/-- The loop over the faces of an element that is not a leaf: the bounds for its faces. -/
theorem faces_inner {nb0 : List (Option Int)} (hlen : nb0.length = 2 * (mf + 1)) (i : Nat) (G : Remotes T) :
    ∃ s, (List.range ((X.faces g).numFaces e)).foldlM (faceBody X g e false i b lo up) ⟨nb0, true, G⟩ = some s ∧
      s.newBounds.length = 2 * (mf + 1) ∧ s.newBounds[2 * mf]? = nb0[2 * mf]? ∧ s.newBounds[2 * mf + 1]? = nb0[2 * mf + 1]? ∧
      (∀ f, f < (X.faces g).numFaces e → Written s.newBounds f ∧
        ∀ n, X.neighbor g e f = some n → Pair P s.newBounds f (fun q => D.OwnsAtFace (In n.tree) q n.elem n.face)) ∧
      s.remotes = G ∧
      (s.totallyOwned = true → ∀ f n q, f < (X.faces g).numFaces e → X.neighbor g e f = some n →
        D.OwnsAtFace (In n.tree) q n.elem n.face → q = p) := by
  refine foldlM_range (f := faceBody X g e false i b lo up) (n := (X.faces g).numFaces e) (b := ⟨nb0, true, G⟩)
    (fun k s => s.newBounds.length = 2 * (mf + 1) ∧ s.newBounds[2 * mf]? = nb0[2 * mf]? ∧ s.newBounds[2 * mf + 1]? = nb0[2 * mf + 1]? ∧
      (∀ f, f < k → Written s.newBounds f ∧
        ∀ n, X.neighbor g e f = some n → Pair P s.newBounds f (fun q => D.OwnsAtFace (In n.tree) q n.elem n.face)) ∧
      s.remotes = G ∧
      (s.totallyOwned = true → ∀ f n q, f < k → X.neighbor g e f = some n → D.OwnsAtFace (In n.tree) q n.elem n.face → q = p))
    ?_ ⟨hlen, rfl, rfl, by simp, rfl, by simp⟩
  · rintro k hk s ⟨i1, i2, i3, i4, i5, i6⟩
    obtain ⟨l, u, r1, r2⟩ := read_bounds hb hlo hup hk
    obtain ⟨l', u', o1, o2, o3⟩ := ownersAtNeighFaceBounds_spec hs hg he hle hk r2
    obtain ⟨b1, b', w1, w2, w3, w4, w5, w6⟩ := wr_pair (b := s.newBounds) (i := k) (by omega) l' u'
    refine ⟨⟨b', s.totallyOwned && !decide (l' ≠ u' ∨ l' ≠ X.rank), s.remotes⟩, ?_, ?_⟩
    · unfold faceBody
      rw [r1]
      simp only [Option.bind_eq_bind, Option.bind_some, Bool.not_false, if_true]
      rw [o1]
      simp only [Option.bind_some]
      rw [Nat.mul_comm k 2, w1]
      simp only [Option.bind_some]
      rw [w2]
      rfl
    · refine ⟨by rw [w3, i1], ?_, ?_, ?_, i5, ?_⟩
      · exact (w6 mf (by omega)).1.trans i2
      · exact (w6 mf (by omega)).2.trans i3
      · intro f hf
        by_cases hfk : f = k
        · subst hfk
          refine ⟨⟨l', u', w4, w5⟩, ?_⟩
          intro n hn
          obtain ⟨a, c, rfl, rfl, h3, h4⟩ := o3 n hn
          exact ⟨a, c, w4, w5, h3, h4⟩
        · obtain ⟨⟨x, y, h1, h2⟩, h3⟩ := i4 f (by omega)
          refine ⟨⟨x, y, (w6 f hfk).1.trans h1, (w6 f hfk).2.trans h2⟩, ?_⟩
          intro n hn
          obtain ⟨x, y, h4, h5, h6, h7⟩ := h3 n hn
          exact ⟨x, y, (w6 f hfk).1.trans h4, (w6 f hfk).2.trans h5, h6, h7⟩
      · intro ht f n q hf hn hq
        simp only [Bool.and_eq_true, Bool.not_eq_true', decide_eq_false_iff_not, not_or, not_not] at ht
        by_cases hfk : f = k
        · subst hfk
          obtain ⟨a, c, rfl, rfl, h3, h4⟩ := o3 n hn
          obtain ⟨_, ht1, ht2⟩ := ht
          have := h4 q hq
          rw [hs.rank] at ht2
          omega
        · exact i6 ht.1 f n q (by omega) hn hq

/-- The loop over the faces of a leaf: it is added for the owners at the faces of its neighbors. -/
theorem faces_leaf {nb0 : List (Option Int)} {i : Nat} {base : Int → List (Sent T)} (hbase : Base g e base) {G : Remotes T}
    (hG : Added g e i base (fun _ => False) G) :
    ∃ s, (List.range ((X.faces g).numFaces e)).foldlM (faceBody X g e true i b lo up) ⟨nb0, true, G⟩ = some s ∧
      s.newBounds = nb0 ∧ s.totallyOwned = true ∧
      Added g e i base (fun q => q ≠ p ∧ ∃ f n, f < (X.faces g).numFaces e ∧ X.neighbor g e f = some n ∧
        ∃ q' : Nat, D.OwnsAtFace (In n.tree) q' n.elem n.face ∧ q = q') s.remotes := by
  refine foldlM_range (f := faceBody X g e true i b lo up) (n := (X.faces g).numFaces e) (b := ⟨nb0, true, G⟩)
    (fun k s => s.newBounds = nb0 ∧ s.totallyOwned = true ∧
      Added g e i base (fun q => q ≠ p ∧ ∃ f n, f < k ∧ X.neighbor g e f = some n ∧
        ∃ q' : Nat, D.OwnsAtFace (In n.tree) q' n.elem n.face ∧ q = q') s.remotes)
    ?_ ⟨rfl, rfl, ?_⟩
  · rintro k hk s ⟨i1, i2, i3⟩
    obtain ⟨l, u, r1, r2⟩ := read_bounds hb hlo hup hk
    obtain ⟨o, o1, o2⟩ := ownersAtNeighFace_spec hs hg he hle hk r2
    obtain ⟨G', a1, a2⟩ := addRemotes_spec (X := X) (hs.lawful.scheme g) he hbase o i3
    refine ⟨⟨s.newBounds, s.totallyOwned, G'⟩, ?_, i1, i2, a2.good, ?_, ?_⟩
    · unfold faceBody
      rw [r1]
      simp only [Option.bind_eq_bind, Option.bind_some, Bool.not_true, Bool.false_eq_true, if_false]
      rw [o1]
      simp only [Option.bind_some]
      rw [a1]
      rfl
    · rintro q ⟨hq, f, n, hf, hn, hq'⟩
      refine a2.yes q ?_
      by_cases hfk : f = k
      · subst hfk
        exact Or.inr ⟨(o2 q).2 ⟨n, hn, hq'⟩, by rw [hs.rank]; exact hq⟩
      · exact Or.inl ⟨hq, f, n, by omega, hn, hq'⟩
    · intro q hq
      refine a2.no q (fun h => hq ?_)
      rcases h with ⟨h1, f, n, hf, hn, hq'⟩ | ⟨h1, h2⟩
      · exact ⟨h1, f, n, by omega, hn, hq'⟩
      · obtain ⟨n, hn, hq'⟩ := (o2 q).1 h1
        exact ⟨by rw [← hs.rank]; exact h2, k, n, by omega, hn, hq'⟩
  · exact ⟨hG.good, by simp, fun q _ => hG.no q (by simp)⟩

end Call

end T8.Ghost
