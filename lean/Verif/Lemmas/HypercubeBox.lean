/-
The box of `t8_cmesh_set_vertices_2D` and `t8_cmesh_set_vertices_3D`: its corners are always the images of the corners of a box of
the grid.
-/
import Verif.Spec.HypercubePad
import Mathlib.Tactic.Abel
import Mathlib.Tactic.Ring
import Mathlib.Tactic.FieldSimp
import Mathlib.Tactic.FinCases
import Mathlib.Tactic.IntervalCases
import Mathlib.Tactic.LinearCombination
import Mathlib.Algebra.BigOperators.Fin
import Mathlib.Algebra.Order.BigOperators.Ring.Finset

namespace T8.HypercubePad
open Neighbor

variable {K : Type} [Field K] [LinearOrder K]

/-- What is used of the norm. -/
structure NormLike (norm : (Fin 3 → K) → K) : Prop where
  zero_iff : ∀ v, norm v = 0 ↔ v = 0
  neg : ∀ v, norm (-v) = norm v

/-- Corner `w` of the grid box from `lo` to `hi`. -/
def pos (lo hi : GridPoint) (w : Nat) : GridPoint := fun k => if w / 2 ^ k.val % 2 = 0 then lo k else hi k

/-- The difference of the images of neighbouring grid points. -/
def slope (T : GridPoint → Fin 3 → K) (a : Fin 3) (p : GridPoint) : Fin 3 → K := T (Function.update p a (p a + 1)) - T p

/-- A map that is affine in each of the directions. -/
structure MultiAffine (T : GridPoint → Fin 3 → K) : Prop where
  line : ∀ a p s, T (Function.update p a s) = T p + ((s - p a : Int) : K) • slope T a p
  const : ∀ a p s, slope T a (Function.update p a s) = slope T a p

/-- The direction of an edge. -/
def eax (dim e : Nat) : Fin 3 := ⟨edgeAxis dim e % 3, Nat.mod_lt _ (by decide)⟩

/-- The number of edges of the box. -/
def numEdges (dim : Nat) : Nat := if dim = 2 then 4 else 12

theorem pos_edge {dim e : Nat} (hd : dim = 2 ∨ dim = 3) (he : e < numEdges dim) (lo hi : GridPoint) :
    pos lo hi (edgeVertex (boxClass dim) e 1) = Function.update (pos lo hi (edgeVertex (boxClass dim) e 0)) (eax dim e) (hi (eax dim e)) ∧
    pos lo hi (edgeVertex (boxClass dim) e 0) (eax dim e) = lo (eax dim e) ∧ edgeAxis dim e = (eax dim e).val ∧
    (eax dim e).val < dim ∧ edgeVertex (boxClass dim) e 0 < 2 ^ dim ∧ edgeVertex (boxClass dim) e 1 < 2 ^ dim := by
  rcases hd with rfl | rfl
  · have he : e < 4 := he
    interval_cases e <;> refine ⟨?_, ?_, rfl, by decide, by decide, by decide⟩ <;>
      first | rfl | (funext k; fin_cases k <;> rfl)
  · have he : e < 12 := he
    interval_cases e <;> refine ⟨?_, ?_, rfl, by decide, by decide, by decide⟩ <;>
      first | rfl | (funext k; fin_cases k <;> rfl)

/-- The state of the box. -/
structure Inv (dim : Nat) (T : GridPoint → Fin 3 → K) (lo hi : GridPoint) (Good : Nat → Prop) (B : Box K) : Prop where
  box : ∀ w < 2 ^ dim, B.box w = T (pos lo hi w)
  axes : ∀ a : Fin 3, a.val < dim → B.axes a.val = hi a - lo a
  dir : ∀ e < numEdges dim, Good e → B.dir e = slope T (eax dim e) (pos lo hi (edgeVertex (boxClass dim) e 0))

variable [IsStrictOrderedRing K] {norm : (Fin 3 → K) → K} {T : GridPoint → Fin 3 → K}

theorem updateEdge_ok (hn : NormLike norm) (hT : MultiAffine T) {dim : Nat} (hd : dim = 2 ∨ dim = 3) {lo hi : GridPoint} {B : Box K}
    (hbox : ∀ w < 2 ^ dim, B.box w = T (pos lo hi w)) (haxes : ∀ a : Fin 3, a.val < dim → B.axes a.val = hi a - lo a)
    {e : Nat} (he : e < numEdges dim) (h0 : hi (eax dim e) ≠ lo (eax dim e))
    (hs : slope T (eax dim e) (pos lo hi (edgeVertex (boxClass dim) e 0)) ≠ 0) :
    updateEdge norm dim B e =
      some { B with dir := Function.update B.dir e (slope T (eax dim e) (pos lo hi (edgeVertex (boxClass dim) e 0))) } := by
  obtain ⟨h1, h2, h3, h4, h5, h6⟩ := pos_edge hd he lo hi
  rw [updateEdge, hbox _ h5, hbox _ h6, h3, haxes _ h4, h1, hT.line, h2]
  set σ := slope T (eax dim e) (pos lo hi (edgeVertex (boxClass dim) e 0)) with hσ
  set τ := T (pos lo hi (edgeVertex (boxClass dim) e 0))
  set m : K := ((hi (eax dim e) - lo (eax dim e) : Int) : K) with hm
  have hm0 : m ≠ 0 := by rw [hm]; exact_mod_cast sub_ne_zero.2 h0
  have hv : τ + m • σ + (-1 : K) • τ = m • σ := by rw [neg_one_smul]; abel
  have hv' : τ - (τ + m • σ) = -(m • σ) := by abel
  have hne : norm (m • σ) ≠ 0 := fun h => by
    refine hs (funext fun j => ?_)
    have := congrFun ((hn.zero_iff _).1 h) j
    simpa [hm0] using this
  rw [hv, hv', hn.neg, if_neg (mul_ne_zero hne hm0)]
  congr 2
  have : (norm (m • σ) / (norm (m • σ) * m)) • m • σ = σ := by
    rw [smul_smul]
    have : norm (m • σ) / (norm (m • σ) * m) * m = 1 := by field_simp
    rw [this, one_smul]
  rw [this]

theorem updateEdges_ok (hn : NormLike norm) (hT : MultiAffine T) {dim : Nat} (hd : dim = 2 ∨ dim = 3) {lo hi : GridPoint} (es : List Nat) :
    ∀ {Good : Nat → Prop} {B : Box K}, Inv dim T lo hi Good B →
    (∀ e ∈ es, e < numEdges dim ∧ hi (eax dim e) ≠ lo (eax dim e) ∧
      slope T (eax dim e) (pos lo hi (edgeVertex (boxClass dim) e 0)) ≠ 0) →
    ∃ B', es.foldlM (updateEdge norm dim) B = some B' ∧ Inv dim T lo hi (fun e => Good e ∨ e ∈ es) B' := by
  induction es with
  | nil => exact fun hI _ => ⟨_, rfl, ⟨hI.box, hI.axes, fun e he hg => hI.dir e he (by simpa using hg)⟩⟩
  | cons e es ih =>
    intro Good B hI h
    obtain ⟨h1, h2, h3⟩ := h e (by simp)
    have hI' : Inv dim T lo hi (fun e' => Good e' ∨ e' = e)
        { B with dir := Function.update B.dir e (slope T (eax dim e) (pos lo hi (edgeVertex (boxClass dim) e 0))) } := by
      refine ⟨hI.box, hI.axes, fun e' he' hg => ?_⟩
      by_cases hee : e' = e
      · subst hee; simp
      · simpa [hee] using hI.dir e' he' (hg.resolve_right hee)
    obtain ⟨B', hB, hI2⟩ := ih hI' fun e' he' => h e' (by simp [he'])
    refine ⟨B', ?_, ⟨hI2.box, hI2.axes, fun e' he' hg => hI2.dir e' he' ?_⟩⟩
    · rw [List.foldlM_cons, updateEdge_ok hn hT hd hI.box hI.axes h1 h2 h3]
      exact hB
    · simp only [List.mem_cons] at hg; tauto

/-- The edge through corner `w` in direction `a`. -/
def edgeAt (dim w a : Nat) : Nat :=
  if dim = 2 then (if a = 0 then 2 + w / 2 else w % 2)
  else if a = 0 then w / 2 else if a = 1 then 4 + w % 2 + w / 4 * 2 else 8 + w % 4

theorem resize_eq {dim f : Nat} (hd : dim = 2 ∨ dim = 3) (hf : f < 2 * dim) (k : Int) (B : Box K) :
    (∀ w < 2 ^ dim, (resize dim f k B).box w =
      if w / 2 ^ (f / 2) % 2 = f % 2 then B.box w + (k : K) • B.dir (edgeAt dim w (f / 2)) else B.box w) ∧
    (resize dim f k B).dir = B.dir ∧
    (resize dim f k B).axes = Function.update B.axes (f / 2) (B.axes (f / 2) + if f % 2 = 0 then -k else k) := by
  rcases hd with rfl | rfl
  · have hf : f < 4 := hf
    refine ⟨fun w hw => ?_, ?_, ?_⟩
    · have hw : w < 4 := hw
      interval_cases f <;> interval_cases w <;> simp [resize, resizeCorner, List.range_succ, boxClass, faceVertices, faceToEdgeNeighbor, edgeAt]
    · interval_cases f <;> rfl
    · interval_cases f <;> rfl
  · have hf : f < 6 := hf
    refine ⟨fun w hw => ?_, ?_, ?_⟩
    · have hw : w < 8 := hw
      interval_cases f <;> interval_cases w <;> simp [resize, resizeCorner, List.range_succ, boxClass, faceVertices, faceToEdgeNeighbor, edgeAt]
    · interval_cases f <;> rfl
    · interval_cases f <;> rfl

theorem edgeAt_ok {dim w : Nat} (hd : dim = 2 ∨ dim = 3) (hw : w < 2 ^ dim) {a : Fin 3} (ha : a.val < dim) :
    edgeAt dim w a.val < numEdges dim ∧ eax dim (edgeAt dim w a.val) = a ∧
    ∀ k : Fin 3, k ≠ a → edgeVertex (boxClass dim) (edgeAt dim w a.val) 0 / 2 ^ k.val % 2 = w / 2 ^ k.val % 2 := by
  rcases hd with rfl | rfl
  · have hw : w < 4 := hw
    revert a
    interval_cases w <;> decide
  · have hw : w < 8 := hw
    revert a
    interval_cases w <;> decide

/-- The box of the grid after `t8_resize_box`. -/
def newLo (f : Nat) (a : Fin 3) (k : Int) (lo : GridPoint) : GridPoint := if f % 2 = 0 then Function.update lo a (lo a + k) else lo
def newHi (f : Nat) (a : Fin 3) (k : Int) (hi : GridPoint) : GridPoint := if f % 2 = 0 then hi else Function.update hi a (hi a + k)

theorem pos_new {f : Nat} {a : Fin 3} {k : Int} {lo hi : GridPoint} {w : Nat} :
    pos (newLo f a k lo) (newHi f a k hi) w =
      if w / 2 ^ a.val % 2 = f % 2 then Function.update (pos lo hi w) a (pos lo hi w a + k) else pos lo hi w := by
  funext j
  rcases Nat.mod_two_eq_zero_or_one f with hf | hf <;> rcases Nat.mod_two_eq_zero_or_one (w / 2 ^ a.val) with hw | hw <;>
    by_cases hj : j = a <;> simp [pos, newLo, newHi, hf, hw, hj] <;> try (subst hj; simp [hw])

omit [LinearOrder K] [IsStrictOrderedRing K] in
theorem slope_congr (hT : MultiAffine T) {a : Fin 3} {p q : GridPoint} (h : ∀ k, k ≠ a → p k = q k) : slope T a p = slope T a q := by
  have : p = Function.update q a (p a) := by
    funext k
    by_cases hk : k = a
    · subst hk; simp
    · simp [hk, h k hk]
  rw [this, hT.const]

theorem resize_ok (hT : MultiAffine T) {dim f : Nat} (hd : dim = 2 ∨ dim = 3) (hf : f < 2 * dim) {a : Fin 3} (ha : a.val = f / 2)
    {k : Int} {lo hi : GridPoint} {Good : Nat → Prop} {B : Box K} (hI : Inv dim T lo hi Good B)
    (hG : ∀ w < 2 ^ dim, w / 2 ^ a.val % 2 = f % 2 → Good (edgeAt dim w a.val)) :
    Inv dim T (newLo f a k lo) (newHi f a k hi)
      (fun e => Good e ∧ (eax dim e = a ∨ edgeVertex (boxClass dim) e 0 / 2 ^ a.val % 2 ≠ f % 2)) (resize dim f k B) := by
  obtain ⟨h1, h2, h3⟩ := resize_eq (K := K) hd hf k B
  have had : a.val < dim := by omega
  refine ⟨fun w hw => ?_, fun b hb => ?_, fun e he hg => ?_⟩
  · rw [h1 w hw, pos_new, ← ha]
    split
    · next hwf =>
      obtain ⟨e1, e2, e3⟩ := edgeAt_ok hd hw had
      rw [hI.box w hw, hI.dir _ e1 (hG w hw hwf), hT.line, e2]
      congr 2
      · push_cast; ring
      · refine slope_congr hT fun j hj => ?_
        simp only [pos, e3 j hj]
    · exact hI.box w hw
  · rw [h3, ← ha]
    by_cases hba : b = a
    · subst hba
      rw [Function.update_self, hI.axes b hb]
      rcases Nat.mod_two_eq_zero_or_one f with hf | hf <;> simp [newLo, newHi, hf] <;> ring
    · have : b.val ≠ a.val := fun h => hba (Fin.ext h)
      rw [Function.update_of_ne this, hI.axes b hb]
      rcases Nat.mod_two_eq_zero_or_one f with hf | hf <;> simp [newLo, newHi, hf, hba]
  · rw [h2, hI.dir e he hg.1, pos_new]
    split
    · next hwf =>
      rcases hg.2 with h | h
      · rw [h, hT.const]
      · exact absurd hwf h
    · rfl

/-- The edges of a face are those that lie in it. -/
theorem faceEdges_ok {dim f : Nat} (hd : dim = 2 ∨ dim = 3) (hf : f < 2 * dim) {a : Fin 3} (ha : a.val = f / 2) :
    (∀ e ∈ (faceEdges (boxClass dim)).getD f [], e < numEdges dim ∧ eax dim e ≠ a ∧
      edgeVertex (boxClass dim) e 0 / 2 ^ a.val % 2 = f % 2) ∧
    ∀ e < numEdges dim, e ∉ (faceEdges (boxClass dim)).getD f [] →
      eax dim e = a ∨ edgeVertex (boxClass dim) e 0 / 2 ^ a.val % 2 ≠ f % 2 := by
  rcases hd with rfl | rfl
  · have hf : f < 4 := hf
    revert a
    interval_cases f <;> decide
  · have hf : f < 6 := hf
    revert a
    interval_cases f <;> decide

theorem updateFace_ok (hn : NormLike norm) (hT : MultiAffine T) {dim f : Nat} (hd : dim = 2 ∨ dim = 3) (hf : f < 2 * dim)
    {a : Fin 3} (ha : a.val = f / 2) {lo hi : GridPoint} {Good : Nat → Prop} {B : Box K} (hI : Inv dim T lo hi Good B)
    (hne : ∀ b : Fin 3, b.val < dim → b ≠ a → hi b ≠ lo b)
    (hs : ∀ (b : Fin 3) (w : Nat), b.val < dim → b ≠ a → w < 2 ^ dim → w / 2 ^ a.val % 2 = f % 2 → slope T b (pos lo hi w) ≠ 0) :
    ∃ B', updateFace norm dim f B = some B' ∧
      Inv dim T lo hi (fun e => Good e ∨ e ∈ (faceEdges (boxClass dim)).getD f []) B' := by
  refine updateEdges_ok hn hT hd _ hI fun e he => ?_
  obtain ⟨h1, h2, h3⟩ := (faceEdges_ok hd hf ha).1 e he
  obtain ⟨_, _, _, h4, h5, _⟩ := pos_edge hd h1 lo hi
  exact ⟨h1, hne _ h4 h2, hs _ _ h4 h2 h5 h3⟩

/-- A change of the size of the box. -/
theorem move_ok (hn : NormLike norm) (hT : MultiAffine T) {dim f : Nat} (hd : dim = 2 ∨ dim = 3) (hf : f < 2 * dim) {a : Fin 3}
    (ha : a.val = f / 2) {k : Int} {lo hi : GridPoint} {Good : Nat → Prop} {B : Box K} (hI : Inv dim T lo hi Good B)
    (hG : ∀ w < 2 ^ dim, w / 2 ^ a.val % 2 = f % 2 → Good (edgeAt dim w a.val))
    (hne : ∀ b : Fin 3, b.val < dim → b ≠ a → hi b ≠ lo b)
    (hs : ∀ (b : Fin 3) (w : Nat), b.val < dim → b ≠ a → w < 2 ^ dim → w / 2 ^ a.val % 2 = f % 2 →
      slope T b (Function.update (pos lo hi w) a (pos lo hi w a + k)) ≠ 0) :
    ∃ B', move norm dim f k B = some B' ∧ Inv dim T (newLo f a k lo) (newHi f a k hi)
      (fun e => Good e ∨ e ∈ (faceEdges (boxClass dim)).getD f []) B' := by
  obtain ⟨B', hB, hI'⟩ := updateFace_ok hn hT hd hf ha (resize_ok hT hd hf ha (k := k) hI hG)
    (fun b hb hba => by
      rcases Nat.mod_two_eq_zero_or_one f with hf | hf <;> simpa [newLo, newHi, hf, hba] using hne b hb hba)
    (fun b w hb hba hw hwf => by rw [pos_new, if_pos hwf]; exact hs b w hb hba hw hwf)
  refine ⟨B', hB, hI'.box, hI'.axes, fun e he hg => hI'.dir e he ?_⟩
  by_cases hm : e ∈ (faceEdges (boxClass dim)).getD f []
  · exact Or.inr hm
  · exact Or.inl ⟨hg.resolve_right hm, (faceEdges_ok hd hf ha).2 e he hm⟩

end T8.HypercubePad
