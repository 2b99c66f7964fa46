/-
Faces of prisms: from the faces of the triangle and of the line.
-/
import Verif.Lemmas.PrismSucc
import Verif.Lemmas.SimplexTransform
import Verif.Lemmas.SimplexUnique
import Verif.Lemmas.SimplexExtrude
import Verif.Props.SimplexFaces

namespace T8.RTree
variable {T : RTree} {N : Nat}

/-- On one level the order is that of the positions. -/
theorem pos_le_iff {a x : T.E} (ha : T.Valid a) (hx : T.Valid x) (hl : T.level x = T.level a) :
    pos a ≤ pos x ↔ x = a ∨ T.Before a x := by
  have hb := before_iff ha hx (L := T.level a) (le_refl _) (by omega) (T.level_le a ha)
  rw [count_self] at hb
  rw [hb]
  have hpx : pos x = lid x (T.level a) := by rw [pos, hl]
  rw [hpx, pos]
  constructor
  · intro h
    rcases Nat.lt_or_ge (lid a (T.level a)) (lid x (T.level a)) with h1 | h1
    · exact Or.inr h1
    · left
      exact lid_inj hx ha hl (L := T.level a) (by omega) (T.level_le a ha) (by omega)
  · rintro (rfl | h)
    · exact le_refl _
    · omega

theorem div_or {p a a' : Nat} (hp : 0 < p) (h : a < a') : a / p < a' / p ∨ a / p = a' / p ∧ a % p < a' % p := by
  have h1 : a / p ≤ a' / p := Nat.div_le_div_right (by omega)
  rcases Nat.lt_or_ge (a / p) (a' / p) with h2 | h2
  · exact Or.inl h2
  · have h3 : a / p = a' / p := by omega
    have e1 := Nat.div_add_mod a p
    have e2 := Nat.div_add_mod a' p
    rw [h3] at e1
    exact Or.inr ⟨h3, by omega⟩

theorem mix_mono1 {p q : Nat} (hp : 0 < p) (hq : 0 < q) (n a a' : Nat) (h : a < a') (ha : a' < p ^ n) :
    mix p q n a 0 < mix p q n a' 0 := by
  induction n generalizing a a' with
  | zero => simp at ha; omega
  | succ n ih =>
    simp only [mix, Nat.zero_div, Nat.zero_mod, Nat.mul_zero, Nat.add_zero]
    rcases div_or hp h with h1 | ⟨h1, h2⟩
    · have h3 := ih _ _ h1 (Nat.div_lt_of_lt_mul (by rw [← Nat.pow_succ']; exact ha))
      have h4 := Nat.mul_le_mul_right (p * q) h3
      have h5 : p ≤ p * q := Nat.le_mul_of_pos_right _ hq
      have h6 := Nat.mod_lt a hp
      rw [Nat.succ_mul] at h4
      omega
    · rw [h1]; omega

theorem mix_mono2 {p q : Nat} (hp : 0 < p) (hq : 0 < q) (n b b' : Nat) (h : b < b') (hb : b' < q ^ n) :
    mix p q n 0 b < mix p q n 0 b' := by
  induction n generalizing b b' with
  | zero => simp at hb; omega
  | succ n ih =>
    simp only [mix, Nat.zero_div, Nat.zero_mod, Nat.zero_add]
    rcases div_or hq h with h1 | ⟨h1, h2⟩
    · have h3 := ih _ _ h1 (Nat.div_lt_of_lt_mul (by rw [← Nat.pow_succ']; exact hb))
      have h4 := Nat.mul_le_mul_right (p * q) h3
      have h5 : p * (b % q) < p * q := Nat.mul_lt_mul_of_pos_left (Nat.mod_lt b hq) hp
      rw [Nat.succ_mul] at h4
      omega
    · rw [h1]
      have := Nat.mul_lt_mul_of_pos_left h2 hp
      omega

theorem mix_mono {p q : Nat} (hp : 0 < p) (hq : 0 < q) {n a a' b b' : Nat} (h : a ≤ a') (ha : a' < p ^ n) (h' : b ≤ b')
    (hb : b' < q ^ n) : mix p q n a b ≤ mix p q n a' b' := by
  rw [mix_add p q n a, mix_add p q n a']
  apply Nat.add_le_add
  · rcases Nat.lt_or_ge a a' with h1 | h1
    · exact le_of_lt (mix_mono1 hp hq n a a' h1 ha)
    · rw [show a = a' by omega]
  · rcases Nat.lt_or_ge b b' with h1 | h1
    · exact le_of_lt (mix_mono2 hp hq n b b' h1 hb)
    · rw [show b = b' by omega]

/-- Descendants lie between the first and the last position. -/
theorem Regular.desc_pos (hr : T.Regular N) {a x : T.E} (ha : T.Valid a) (h : T.Desc a x) :
    pos a * N ^ (T.level x - T.level a) ≤ pos x ∧ pos x + 1 ≤ (pos a + 1) * N ^ (T.level x - T.level a) := by
  obtain ⟨_, h2⟩ := (hr.desc_iff ha (h.valid ha)).1 h
  have hN : 0 < N ^ (T.level x - T.level a) := Nat.pow_pos hr.pos_base
  rw [h2]
  exact ⟨Nat.div_mul_le_self _ _, by rw [Nat.mul_comm]; exact Nat.lt_mul_div_succ _ hN⟩

end T8.RTree

namespace T8.Prism
open T8.RTree T8.Bits
open T8.Simplex (Cls)

/-- If triangle and line come before or agree, then so do the prisms. -/
theorem order_of {a x : Prism} (ha : Valid a) (hx : Valid x) (hl : level x = level a)
    (h1 : pos (T := Simplex.tree .tri) a.1 ≤ pos (T := Simplex.tree .tri) x.1)
    (h2 : pos (T := Dline.tree) a.2 ≤ pos (T := Dline.tree) x.2) : x = a ∨ tree.Before a x := by
  rw [← pos_le_iff (T := tree) ha hx hl, pos_eq ha, pos_eq hx]
  have hl' : x.2.level = a.2.level := hl
  rw [hl']
  refine mix_mono (by decide) (by decide) h1 ?_ h2 ?_
  · have := regular_tri.pos_lt hx.1
    rw [show (Simplex.tree .tri).level x.1 = a.2.level from (tri_level hx).trans hl'] at this
    exact this
  · have := Dline.regular.pos_lt hx.2.1
    rw [show Dline.tree.level x.2 = a.2.level from hl'] at this
    exact this

/-! ### Products of sets -/

theorem prod_subset {α β : Type} {A A' : Set α} {B B' : Set β} (hA : A.Nonempty) (hB : B.Nonempty) :
    {p : α × β | p.1 ∈ A ∧ p.2 ∈ B} ⊆ {p : α × β | p.1 ∈ A' ∧ p.2 ∈ B'} ↔ A ⊆ A' ∧ B ⊆ B' := by
  obtain ⟨a, ha⟩ := hA
  obtain ⟨b, hb⟩ := hB
  constructor
  · intro h
    exact ⟨fun p hp => (@h (p, b) ⟨hp, hb⟩).1, fun p hp => (@h (a, p) ⟨ha, hp⟩).2⟩
  · rintro ⟨h1, h2⟩ p ⟨hp1, hp2⟩
    exact ⟨h1 hp1, h2 hp2⟩

theorem tri_face_nonempty {e : Simplex.Elem 2} (he : Simplex.Valid .tri e) {f : Nat} (hf : f < 3) :
    (Simplex.Face .tri e f).Nonempty :=
  ⟨Simplex.corner .tri e (if f = 0 then 1 else 0), (Simplex.corner_mem_face (c := .tri) he.aligned.2
    (by show _ ≤ 2; split <;> omega) (by show f ≤ 2; omega)).2 (by split <;> omega)⟩

theorem tri_points_nonempty {e : Simplex.Elem 2} (he : Simplex.Valid .tri e) : (Simplex.Points .tri e).Nonempty :=
  (tri_face_nonempty he (f := 0) (by omega)).mono (Simplex.face_sub_points (c := .tri) e 0)

theorem line_points_nonempty (e : Dline.Line) : (Dline.Points e).Nonempty := ⟨e.x.toNat, le_refl _, Nat.le_add_right _ _⟩

theorem line_face_nonempty (e : Dline.Line) (f : Nat) : (Dline.Face e f).Nonempty := ⟨_, rfl⟩

theorem face_lt {e : Prism} {f : Nat} (hf : f < 3) :
    Face e f = {p | p.1 ∈ Simplex.Face .tri e.1 f ∧ p.2 ∈ Dline.Points e.2} := by rw [Face, if_pos hf]

theorem face_ge {e : Prism} {f : Nat} (hf : 3 ≤ f) :
    Face e f = {p | p.1 ∈ Simplex.Points .tri e.1 ∧ p.2 ∈ Dline.Face e.2 (f - 3)} := by rw [Face, if_neg (by omega)]

theorem line_not_point (x e : Dline.Line) (f : Nat) : ¬ Dline.Points x ⊆ Dline.Face e f := by
  intro h
  have h1 : x.x.toNat = _ := @h x.x.toNat ⟨le_refl _, Nat.le_add_right _ _⟩
  have h2 : x.x.toNat + 2 ^ (30 - x.level) = _ := @h (x.x.toNat + 2 ^ (30 - x.level)) ⟨Nat.le_add_right _ _, le_refl _⟩
  have := Nat.two_pow_pos (30 - x.level)
  omega

theorem tri_not_face {x e : Simplex.Elem 2} (hx : Simplex.Valid .tri x) (he : Simplex.Valid .tri e) {f : Nat} (hf : f < 3) :
    ¬ Simplex.Points .tri x ⊆ Simplex.Face .tri e f := by
  intro h
  refine Simplex.not_all_corners (c := .tri) hx.aligned.2 he.aligned.2 (f := f) (by show f ≤ 2; omega) fun k hk => h ?_
  exact (Simplex.points_sub_iff (c := .tri) hx.aligned.2 x).1 Set.Subset.rfl k hk

/-- A face lies in a face exactly if both factors do. -/
theorem face_sub_iff {x e : Prism} (hx : Valid x) (he : Valid e) {g f : Nat} :
    Face x g ⊆ Face e f ↔
      (g < 3 ∧ f < 3 ∧ Simplex.Face .tri x.1 g ⊆ Simplex.Face .tri e.1 f ∧ Dline.Points x.2 ⊆ Dline.Points e.2) ∨
      (3 ≤ g ∧ 3 ≤ f ∧ Simplex.Points .tri x.1 ⊆ Simplex.Points .tri e.1 ∧
        Dline.Face x.2 (g - 3) ⊆ Dline.Face e.2 (f - 3)) := by
  rcases Nat.lt_or_ge g 3 with hg | hg <;> rcases Nat.lt_or_ge f 3 with hf | hf
  · rw [face_lt hg, face_lt hf, prod_subset (tri_face_nonempty hx.1 hg) (line_points_nonempty _)]
    simp only [hg, hf, true_and, show ¬ 3 ≤ g by omega, false_and, or_false]
  · rw [face_lt hg, face_ge hf, prod_subset (tri_face_nonempty hx.1 hg) (line_points_nonempty _)]
    simp only [line_not_point, and_false, show ¬ 3 ≤ g by omega, show ¬ f < 3 by omega, false_and, or_false]
  · rw [face_ge hg, face_lt hf, prod_subset (tri_points_nonempty hx.1) (line_face_nonempty _ _)]
    simp only [tri_not_face hx.1 he.1 hf, false_and, show ¬ g < 3 by omega, show ¬ 3 ≤ f by omega, and_false, or_false]
  · rw [face_ge hg, face_ge hf, prod_subset (tri_points_nonempty hx.1) (line_face_nonempty _ _)]
    simp only [hg, hf, true_and, show ¬ g < 3 by omega, false_and, false_or]

/-! ### Descendants -/

theorem line_inside {e : Dline.Line} (he : Dline.Valid e) (hl : e.level < 30) {i : Nat} (hi : i < 2) :
    Dline.Points (Dline.child e i) ⊆ Dline.Points e := by
  rintro p ⟨h1, h2⟩
  rw [Dline.child_x he hl hi] at h1 h2
  have hs : 2 ^ (Dline.maxLevel - e.level) = 2 ^ (Dline.maxLevel - (e.level + 1)) * 2 := by
    rw [← Nat.pow_succ]; congr 1; show 30 - _ = 30 - _ + 1; omega
  have h2' : p ≤ e.x.toNat + i * 2 ^ (Dline.maxLevel - (e.level + 1)) + 2 ^ (Dline.maxLevel - (e.level + 1)) := h2
  have : i = 0 ∨ i = 1 := by omega
  refine ⟨by omega, ?_⟩
  rw [hs]
  rcases this with rfl | rfl <;> omega

theorem desc_iff {e x : Prism} (he : Valid e) (hx : Valid x) :
    tree.Desc e x ↔ (Simplex.tree .tri).Desc e.1 x.1 ∧ Dline.tree.Desc e.2 x.2 :=
  prod_desc_iff (A := Simplex.tree .tri) (B := Dline.tree) (p := 4) (q := 2) (M := maxLevel) (hA := regular_tri)
    (hB := Dline.regular) (h1 := by decide) (h2 := by decide) he hx

theorem line_desc_points {e x : Dline.Line} (he : Dline.Valid e) (h : Dline.tree.Desc e x) :
    Dline.Points x ⊆ Dline.Points e := by
  refine Desc.ind (T := Dline.tree) (P := fun x => Dline.Points x ⊆ Dline.Points e) h Set.Subset.rfl fun x i hd hl hi ih => ?_
  exact (line_inside (hd.valid (T := Dline.tree) he) hl hi).trans ih

theorem desc_parts {e x : Prism} (he : Valid e) (h : tree.Desc e x) :
    Valid x ∧ (Simplex.tree .tri).Desc e.1 x.1 ∧ Dline.tree.Desc e.2 x.2 ∧
    Simplex.Points .tri x.1 ⊆ Simplex.Points .tri e.1 ∧ Dline.Points x.2 ⊆ Dline.Points e.2 := by
  have hx : Valid x := h.valid he
  obtain ⟨h1, h2⟩ := (desc_iff he hx).1 h
  exact ⟨hx, h1, h2, Simplex.desc_points (c := .tri) he.1 h1, line_desc_points he.2.1 h2⟩

/-- Face `g` of `x` lies in face `f` of `e`. -/
def InFace (x : Prism) (g : Nat) (e : Prism) (f : Nat) : Prop := g < numFaces ∧ f < numFaces ∧ Face x g ⊆ Face e f

/-- Faces of descendants: one of the factors has a face in the face. -/
theorem inFace_iff {e x : Prism} (he : Valid e) (h : tree.Desc e x) {g f : Nat} :
    InFace x g e f ↔ (g < 3 ∧ f < 3 ∧ Simplex.InFace .tri x.1 g e.1 f) ∨
      (3 ≤ g ∧ 3 ≤ f ∧ Dline.InFace x.2 (g - 3) e.2 (f - 3)) := by
  obtain ⟨hx, _, _, h3, h4⟩ := desc_parts he h
  rw [InFace, face_sub_iff hx he]
  constructor
  · rintro ⟨a, b, ⟨c1, c2, c3, c4⟩ | ⟨c1, c2, c3, c4⟩⟩
    · exact Or.inl ⟨c1, c2, c1, c2, c3⟩
    · have a' : g < 5 := a
      have b' : f < 5 := b
      exact Or.inr ⟨c1, c2, by show g - 3 < 2; omega, by show f - 3 < 2; omega, c4⟩
  · rintro (⟨c1, c2, c3⟩ | ⟨c1, c2, c3, c4, c5⟩)
    · exact ⟨by show g < 5; omega, by show f < 5; omega, Or.inl ⟨c1, c2, c3.2.2, h4⟩⟩
    · have c3' : g - 3 < 2 := c3
      have c4' : f - 3 < 2 := c4
      exact ⟨by show g < 5; omega, by show f < 5; omega, Or.inr ⟨c1, c2, h3, c5⟩⟩

theorem InFace.unique {x e : Prism} {g g' f : Nat} (he : Valid e) (hx : tree.Desc e x) (h : InFace x g e f)
    (h' : InFace x g' e f) : g = g' := by
  obtain ⟨_, h1, h2, _, _⟩ := desc_parts he hx
  rcases (inFace_iff he hx).1 h with ⟨a1, a2, a3⟩ | ⟨a1, a2, a3⟩ <;>
    rcases (inFace_iff he hx).1 h' with ⟨b1, b2, b3⟩ | ⟨b1, b2, b3⟩
  · exact a3.unique he.1 h1 b3
  · omega
  · omega
  · have := (Dline.inFace_eq he.2.1 h2 a3).2
    have := (Dline.inFace_eq he.2.1 h2 b3).2
    omega

theorem between {x y e : Prism} {g f : Nat} (he : Valid e) (hy : tree.Desc e y) (hx : tree.Desc y x)
    (h : InFace x g e f) : ∃ k, InFace y k e f ∧ InFace x g y k := by
  obtain ⟨vy, y1, y2, _, _⟩ := desc_parts he hy
  obtain ⟨vx, x1, x2, _, _⟩ := desc_parts vy hx
  rcases (inFace_iff he (hy.trans hx)).1 h with ⟨a1, a2, a3⟩ | ⟨a1, a2, a3⟩
  · obtain ⟨k, k1, k2⟩ := Simplex.between (c := .tri) he.1 y1 x1 a3
    exact ⟨k, (inFace_iff he hy).2 (Or.inl ⟨k1.1, a2, k1⟩), (inFace_iff vy hx).2 (Or.inl ⟨a1, k1.1, k2⟩)⟩
  · obtain ⟨k, k1, k2⟩ := Dline.faceScheme_lawful.between _ _ _ _ _ he.2.1 y2 x2 a3
    exact ⟨k + 3, (inFace_iff he hy).2 (Or.inr ⟨by omega, a2, k1⟩), (inFace_iff vy hx).2 (Or.inr ⟨a1, by omega, k2⟩)⟩

/-! ### Children at a face -/

theorem ids_table : ∀ t < 2, ∀ f < 3, (List.range 4).map (fun i => Simplex.look childrenAtFaceTable t (f * 4 + i)) =
    Simplex.idsOf .tri t f ++ (Simplex.idsOf .tri t f).map (· + 4) := by decide +kernel

/-- The child indices at a face in terms of those of the triangle and of the line. -/
theorem ids_eq {e : Prism} (he : Valid e) {f : Nat} (hf : f < 5) :
    childIdsAtFace e f = if f < 3 then Simplex.childIdsAtFace .tri e.1 f ++ (Simplex.childIdsAtFace .tri e.1 f).map (· + 4)
      else [4 * (f - 3), 4 * (f - 3) + 1, 4 * (f - 3) + 2, 4 * (f - 3) + 3] := by
  unfold childIdsAtFace
  split
  · next h => rw [ids_table _ he.1.aligned.2 f h, Simplex.idsOf_eq (c := .tri)]
  · next h =>
    have : f = 3 ∨ f = 4 := by omega
    rcases this with rfl | rfl <;> rfl

theorem child_fst (e : Prism) (i : Nat) : (child e i).1 = Simplex.child .tri e.1 (i % 4) := rfl

theorem child_snd (e : Prism) (i : Nat) : (child e i).2 = Dline.child e.2 (i / 4) := rfl

theorem ids_mem {e : Prism} (he : Valid e) (hl : level e < maxLevel) {f : Nat} (hf : f < 5) (i : Nat) :
    i ∈ childIdsAtFace e f ↔ i < 8 ∧ ∃ g, InFace (child e i) g e f := by
  have hl' : e.2.level < 21 := hl
  have hlt : e.1.level < Cls.tri.maxLevel := by rw [tri_level he]; show _ < 29; omega
  have hll : e.2.level < Dline.maxLevel := by show _ < 30; omega
  have hin : i < 8 → ∀ g, InFace (child e i) g e f ↔ _ := fun hi g =>
    inFace_iff he (show tree.Desc e (child e i) from Desc.child_self (T := tree) (a := e) (i := i) hl hi)
  rw [ids_eq he hf]
  split
  · next h =>
    have hm := fun j => Simplex.ids_mem (c := .tri) he.1 hlt (f := f) h j
    rw [List.mem_append, List.mem_map]
    constructor
    · rintro (h1 | ⟨j, h1, rfl⟩)
      · obtain ⟨a, g, b⟩ := (hm i).1 h1
        have a' : i < 4 := a
        refine ⟨by omega, g, (hin (by omega) g).2 (Or.inl ⟨b.1, h, ?_⟩)⟩
        rw [child_fst, Nat.mod_eq_of_lt a']; exact b
      · obtain ⟨a, g, b⟩ := (hm j).1 h1
        have a' : j < 4 := a
        refine ⟨by omega, g, (hin (by omega) g).2 (Or.inl ⟨b.1, h, ?_⟩)⟩
        rw [child_fst, show (j + 4) % 4 = j by omega]; exact b
    · rintro ⟨hi, g, hg⟩
      rcases (hin hi g).1 hg with ⟨a1, a2, a3⟩ | ⟨_, a2, _⟩
      · rw [child_fst] at a3
        have := (hm (i % 4)).2 ⟨by show _ < 4; omega, g, a3⟩
        rcases Nat.lt_or_ge i 4 with h4 | h4
        · left; rw [Nat.mod_eq_of_lt h4] at this; exact this
        · right; exact ⟨i % 4, this, by omega⟩
      · omega
  · next h =>
    have h0 := (Dline.C13_line_children e.2 he.2.1 hll (f - 3) (by show _ < 2; omega)).2.2.1
    have hm : ∀ j, j < 2 → ((∃ g, Dline.InFace (Dline.child e.2 j) g e.2 (f - 3)) ↔ j = f - 3) := by
      intro j hj
      have := h0 j
      rw [Dline.childrenAtFaceIds, List.mem_singleton] at this
      rw [this]
      constructor
      · rintro ⟨g, g1, g2, g3⟩; exact ⟨hj, g, g1, g3⟩
      · rintro ⟨_, g, g1, g3⟩; exact ⟨g, g1, by show _ < 2; omega, g3⟩
    have hmem : i ∈ [4 * (f - 3), 4 * (f - 3) + 1, 4 * (f - 3) + 2, 4 * (f - 3) + 3] ↔ i < 8 ∧ i / 4 = f - 3 := by
      simp only [List.mem_cons, List.not_mem_nil, or_false]; omega
    rw [hmem]
    refine and_congr_right fun hi => ?_
    rw [← hm (i / 4) (by omega)]
    constructor
    · rintro ⟨g, hg⟩
      exact ⟨g + 3, (hin hi (g + 3)).2 (Or.inr ⟨by omega, by omega, hg⟩)⟩
    · rintro ⟨g, hg⟩
      rcases (hin hi g).1 hg with ⟨_, a2, _⟩ | ⟨a1, a2, a3⟩
      · omega
      · exact ⟨g - 3, a3⟩

theorem tri_childFace : ∀ t < 2, ∀ f < 3, ∀ k < 2, Simplex.childFaceOf .tri t f k = f := by decide +kernel

/-- The face of a child in the face has the same number. -/
theorem childFace_eq {e : Prism} (he : Valid e) (hl : level e < maxLevel) {f : Nat} (hf : f < 5) {i : Nat}
    (hi : i ∈ childIdsAtFace e f) : InFace (child e i) f e f := by
  have hl' : e.2.level < 21 := hl
  have hlt : e.1.level < Cls.tri.maxLevel := by rw [tri_level he]; show _ < 29; omega
  obtain ⟨h8, g, hg⟩ := (ids_mem he hl hf i).1 hi
  have hd : tree.Desc e (child e i) := Desc.child_self (T := tree) (a := e) (i := i) hl h8
  suffices g = f by rw [this] at hg; exact hg
  rcases (inFace_iff he hd).1 hg with ⟨a1, a2, a3⟩ | ⟨a1, a2, a3⟩
  · rw [child_fst] at a3
    have hm := (Simplex.ids_mem (c := .tri) he.1 hlt (f := f) a2 (i % 4)).2 ⟨by show _ < 4; omega, g, a3⟩
    obtain ⟨k, hk⟩ := List.mem_iff_getElem?.1 hm
    have hk2 : k < 2 := by
      have h1 := (List.getElem?_eq_some_iff.1 hk).1
      rw [Simplex.idsOf_eq (c := .tri), (Simplex.ids_table .tri _ he.1.aligned.2 f (by show f ≤ 2; omega)).2.1] at h1
      exact h1
    have := (Simplex.childFace_iff (c := .tri) he.1 hlt a2 hk a1).1 a3.2.2
    rw [this, Simplex.childFaceOf_eq (c := .tri), tri_childFace _ he.1.aligned.2 f a2 k hk2]
  · obtain ⟨_, h1, h2, _, _⟩ := desc_parts he hd
    have := (Dline.inFace_eq he.2.1 h2 a3).2
    omega

/-! ### First and last descendant at a face -/

theorem face_corner_table : ∀ f < 5,
    (if f < 3 then Simplex.look faceCorners f 0 < 3 ∧ Simplex.look faceCorners f 0 % 3 = Simplex.firstFaceCorner .tri f ∧
        ¬ Simplex.look faceCorners f 3 < 3 ∧ Simplex.look faceCorners f 3 % 3 = Simplex.lastFaceCorner .tri f
      else (Simplex.look faceCorners f 0 < 3 ↔ f = 3) ∧ Simplex.look faceCorners f 0 % 3 = 0 ∧
        (Simplex.look faceCorners f 2 < 3 ↔ f = 3) ∧ Simplex.look faceCorners f 2 % 3 = 2) := by decide +kernel

theorem firstDescendantFace_spec {e : Prism} (he : Valid e) {f : Nat} (hf : f < 5) {L : Nat} (hl : level e ≤ L)
    (hL : L ≤ maxLevel) : ∃ a, firstDescendantFace e f L = some a ∧ tree.Desc e a ∧ level a = L ∧ (∃ g, InFace a g e f) ∧
    ∀ x g, tree.Desc e x → level x = L → InFace x g e f → x = a ∨ tree.Before a x := by
  have hl' : e.2.level ≤ L := hl
  have hL' : L ≤ 21 := hL
  have hlt : e.1.level ≤ L := by rw [tri_level he]; exact hl'
  have hLt : L ≤ Cls.tri.maxLevel := by show L ≤ 29; omega
  have hLl : L ≤ Dline.maxLevel := by show L ≤ 30; omega
  have htab := face_corner_table f hf
  unfold firstDescendantFace cornerDescendant
  by_cases h3 : f < 3
  · rw [if_pos h3] at htab
    obtain ⟨t1, t2, _, _⟩ := htab
    rw [if_pos t1, t2]
    obtain ⟨a1, b1, b2, b3, ⟨g, b4⟩, b5⟩ := Simplex.firstDescendantFace_spec (c := .tri) he.1 (f := f) h3 hlt hLt
    obtain ⟨c1, c2⟩ := Dline.firstDescendant_pos he.2.1 hl' hLl
    have b1' : Simplex.cornerDescendant .tri e.1 (Simplex.firstFaceCorner .tri f) L = some a1 := b1
    rw [b1']
    have va : Valid (a1, Dline.firstDescendant e.2 L) := ⟨b2.valid (T := Simplex.tree .tri) he.1, c1, b3, hL⟩
    have hd2 : Dline.tree.Desc e.2 (Dline.firstDescendant e.2 L) :=
      ((Dline.regular.desc_iff he.2.1 c1).2 ⟨hl', by
        rw [c2]; exact (Nat.mul_div_cancel _ (Nat.two_pow_pos _)).symm⟩)
    have hd : tree.Desc e (a1, Dline.firstDescendant e.2 L) := (desc_iff he va).2 ⟨b2, hd2⟩
    refine ⟨_, rfl, hd, rfl, ⟨g, (inFace_iff he hd).2 (Or.inl ⟨b4.1, h3, b4⟩)⟩, fun x g' hx hxl hin => ?_⟩
    obtain ⟨vx, x1, x2, _, _⟩ := desc_parts he hx
    rcases (inFace_iff he hx).1 hin with ⟨_, _, a3⟩ | ⟨_, a2, _⟩
    · have hxt : x.1.level = L := (tri_level vx).trans hxl
      refine order_of va vx hxl ?_ ?_
      · exact (pos_le_iff (T := Simplex.tree .tri) va.1 vx.1 (hxt.trans b3.symm)).2 (b5 x.1 g' x1 hxt a3)
      · show pos (T := Dline.tree) (Dline.firstDescendant e.2 L) ≤ _
        rw [c2]
        have := (Dline.regular.desc_pos he.2.1 x2).1
        rw [show Dline.tree.level x.2 = L from hxl] at this
        exact this
    · omega
  · rw [if_neg h3] at htab
    obtain ⟨t1, t2, _, _⟩ := htab
    rw [t2]
    obtain ⟨a1, b1, b2, b3, b4⟩ := Simplex.cornerDescendant_spec (c := .tri) he.1 (m := 0) (by decide) hlt hLt
    rw [b1]
    rw [(Simplex.iloc_ends .tri _ he.1.aligned.2).1, Nat.zero_mul, Nat.add_zero] at b4
    have hline : (if Simplex.look faceCorners f 0 < 3 then Dline.firstDescendant e.2 L else Dline.lastDescendant e.2 L) =
        Dline.firstDescendantFace e.2 (f - 3) L := by
      rw [Dline.firstDescendantFace]
      have : f = 3 ∨ f = 4 := by omega
      rcases this with rfl | rfl
      · rw [if_pos (t1.2 rfl), if_pos rfl]
      · rw [if_neg (fun h => absurd (t1.1 h) (by omega)), if_neg (by omega)]
    rw [hline]
    obtain ⟨_, c2, c3, c4, c5⟩ := Dline.C14_line e.2 he.2.1 (f - 3) (by show _ < 2; omega) L hl' hLl
    have va : Valid (a1, Dline.firstDescendantFace e.2 (f - 3) L) :=
      ⟨b2, c2.valid (T := Dline.tree) he.2.1, b3.trans c3.symm, by show (Dline.firstDescendantFace e.2 (f - 3) L).level ≤ _; rw [c3]; exact hL⟩
    have hd1 : (Simplex.tree .tri).Desc e.1 a1 :=
      ((regular_tri.desc_iff he.1 b2).2 ⟨by show e.1.level ≤ a1.level; omega, by
        rw [b4]
        show _ = _ / 4 ^ (a1.level - e.1.level)
        rw [b3]
        exact (Nat.mul_div_cancel _ (Nat.pow_pos (by decide))).symm⟩)
    have hd : tree.Desc e (a1, Dline.firstDescendantFace e.2 (f - 3) L) := (desc_iff he va).2 ⟨hd1, c2⟩
    refine ⟨_, rfl, hd, c3, ⟨f, (inFace_iff he hd).2 (Or.inr ⟨by omega, by omega, by show _ < 2; omega,
      by show _ < 2; omega, c4⟩)⟩, fun x g' hx hxl hin => ?_⟩
    obtain ⟨vx, x1, x2, _, _⟩ := desc_parts he hx
    rcases (inFace_iff he hx).1 hin with ⟨_, a2, _⟩ | ⟨_, _, a3⟩
    · omega
    · have hxt : x.1.level = L := (tri_level vx).trans hxl
      refine order_of va vx (hxl.trans c3.symm) ?_ ?_
      · show pos (T := Simplex.tree .tri) a1 ≤ _
        rw [b4]
        have := (regular_tri.desc_pos he.1 x1).1
        rw [show (Simplex.tree .tri).level x.1 = L from hxt] at this
        exact this
      · rw [(c5 x.2 _ x2 hxl a3.1 a3.2.2).1]

theorem lastDescendantFace_spec {e : Prism} (he : Valid e) {f : Nat} (hf : f < 5) {L : Nat} (hl : level e ≤ L)
    (hL : L ≤ maxLevel) : ∃ a, lastDescendantFace e f L = some a ∧ tree.Desc e a ∧ level a = L ∧ (∃ g, InFace a g e f) ∧
    ∀ x g, tree.Desc e x → level x = L → InFace x g e f → x = a ∨ tree.Before x a := by
  have hl' : e.2.level ≤ L := hl
  have hL' : L ≤ 21 := hL
  have hlt : e.1.level ≤ L := by rw [tri_level he]; exact hl'
  have hLt : L ≤ Cls.tri.maxLevel := by show L ≤ 29; omega
  have hLl : L ≤ Dline.maxLevel := by show L ≤ 30; omega
  have htab := face_corner_table f hf
  have flip : ∀ {x a : Prism}, a = x ∨ tree.Before x a → x = a ∨ tree.Before x a := by
    rintro x a (h | h)
    · exact Or.inl h.symm
    · exact Or.inr h
  unfold lastDescendantFace cornerDescendant
  by_cases h3 : f < 3
  · rw [if_pos h3] at htab
    obtain ⟨_, _, t1, t2⟩ := htab
    simp only [if_pos h3]
    rw [if_neg t1, t2]
    obtain ⟨a1, b1, b2, b3, ⟨g, b4⟩, b5⟩ := Simplex.lastDescendantFace_spec (c := .tri) he.1 (f := f) h3 hlt hLt
    obtain ⟨c1, c2⟩ := Dline.lastDescendant_pos he.2.1 hl' hLl
    have b1' : Simplex.cornerDescendant .tri e.1 (Simplex.lastFaceCorner .tri f) L = some a1 := b1
    rw [b1']
    have va : Valid (a1, Dline.lastDescendant e.2 L) := ⟨b2.valid (T := Simplex.tree .tri) he.1, c1, b3, hL⟩
    have hd2 : Dline.tree.Desc e.2 (Dline.lastDescendant e.2 L) := by
      refine (Dline.regular.desc_iff he.2.1 c1).2 ⟨hl', ?_⟩
      have hq := Nat.two_pow_pos (L - e.2.level)
      show _ = _ / 2 ^ (L - e.2.level)
      symm
      rw [Nat.add_one_mul] at c2
      exact Nat.div_eq_of_lt_le (by omega) (by rw [Nat.add_one_mul]; omega)
    have hd : tree.Desc e (a1, Dline.lastDescendant e.2 L) := (desc_iff he va).2 ⟨b2, hd2⟩
    refine ⟨_, rfl, hd, rfl, ⟨g, (inFace_iff he hd).2 (Or.inl ⟨b4.1, h3, b4⟩)⟩, fun x g' hx hxl hin => flip ?_⟩
    obtain ⟨vx, x1, x2, _, _⟩ := desc_parts he hx
    rcases (inFace_iff he hx).1 hin with ⟨_, _, a3⟩ | ⟨_, a2, _⟩
    · have hxt : x.1.level = L := (tri_level vx).trans hxl
      refine order_of vx va hxl.symm ?_ ?_
      · refine (pos_le_iff (T := Simplex.tree .tri) vx.1 va.1 (b3.trans hxt.symm)).2 ?_
        rcases b5 x.1 g' x1 hxt a3 with h | h
        · exact Or.inl h.symm
        · exact Or.inr h
      · show _ ≤ pos (T := Dline.tree) (Dline.lastDescendant e.2 L)
        have := (Dline.regular.desc_pos he.2.1 x2).2
        rw [show Dline.tree.level x.2 = L from hxl] at this
        have : pos (T := Dline.tree) x.2 + 1 ≤ (pos (T := Dline.tree) e.2 + 1) * 2 ^ (L - e.2.level) := this
        omega
    · omega
  · rw [if_neg h3] at htab
    obtain ⟨_, _, t1, t2⟩ := htab
    simp only [if_neg h3]
    rw [t2]
    obtain ⟨a1, b1, b2, b3, b4⟩ := Simplex.cornerDescendant_spec (c := .tri) he.1 (m := 2) (by decide) hlt hLt
    rw [b1]
    have b5 : pos (T := Simplex.tree .tri) a1 + 1 = (pos (T := Simplex.tree .tri) e.1 + 1) * 4 ^ (L - e.1.level) := by
      have h1 := (Simplex.iloc_ends .tri _ he.1.aligned.2).2
      have h1' : Simplex.iloc .tri e.1.type 2 = 3 := h1
      have h2 := Simplex.rep_last (N := 4) (by decide) (L - e.1.level)
      have b4' : pos (T := Simplex.tree .tri) a1 = pos (T := Simplex.tree .tri) e.1 * 4 ^ (L - e.1.level) +
        Simplex.iloc .tri e.1.type 2 * Simplex.rep 4 (L - e.1.level) := b4
      rw [h1'] at b4'
      rw [Nat.add_mul, Nat.one_mul, b4']
      omega
    have hline : (if Simplex.look faceCorners f 2 < 3 then Dline.firstDescendant e.2 L else Dline.lastDescendant e.2 L) =
        Dline.firstDescendantFace e.2 (f - 3) L := by
      rw [Dline.firstDescendantFace]
      have : f = 3 ∨ f = 4 := by omega
      rcases this with rfl | rfl
      · rw [if_pos (t1.2 rfl), if_pos rfl]
      · rw [if_neg (fun h => absurd (t1.1 h) (by omega)), if_neg (by omega)]
    rw [hline]
    obtain ⟨_, c2, c3, c4, c5⟩ := Dline.C14_line e.2 he.2.1 (f - 3) (by show _ < 2; omega) L hl' hLl
    have va : Valid (a1, Dline.firstDescendantFace e.2 (f - 3) L) :=
      ⟨b2, c2.valid (T := Dline.tree) he.2.1, b3.trans c3.symm, by show (Dline.firstDescendantFace e.2 (f - 3) L).level ≤ _; rw [c3]; exact hL⟩
    have hd1 : (Simplex.tree .tri).Desc e.1 a1 := by
      refine (regular_tri.desc_iff he.1 b2).2 ⟨by show e.1.level ≤ a1.level; omega, ?_⟩
      have hq : 0 < 4 ^ (L - e.1.level) := Nat.pow_pos (by decide)
      show _ = _ / 4 ^ (a1.level - e.1.level)
      rw [b3]
      symm
      rw [Nat.add_one_mul] at b5
      exact Nat.div_eq_of_lt_le (by omega) (by rw [Nat.add_one_mul]; omega)
    have hd : tree.Desc e (a1, Dline.firstDescendantFace e.2 (f - 3) L) := (desc_iff he va).2 ⟨hd1, c2⟩
    refine ⟨_, rfl, hd, c3, ⟨f, (inFace_iff he hd).2 (Or.inr ⟨by omega, by omega, by show _ < 2; omega,
      by show _ < 2; omega, c4⟩)⟩, fun x g' hx hxl hin => flip ?_⟩
    obtain ⟨vx, x1, x2, _, _⟩ := desc_parts he hx
    rcases (inFace_iff he hx).1 hin with ⟨_, a2, _⟩ | ⟨_, _, a3⟩
    · omega
    · have hxt : x.1.level = L := (tri_level vx).trans hxl
      refine order_of vx va (c3.trans hxl.symm) ?_ ?_
      · show _ ≤ pos (T := Simplex.tree .tri) a1
        have := (regular_tri.desc_pos he.1 x1).2
        rw [show (Simplex.tree .tri).level x.1 = L from hxt] at this
        have : pos (T := Simplex.tree .tri) x.1 + 1 ≤ (pos (T := Simplex.tree .tri) e.1 + 1) * 4 ^ (L - e.1.level) := this
        omega
      · rw [(c5 x.2 _ x2 hxl a3.1 a3.2.2).1]

end T8.Prism
