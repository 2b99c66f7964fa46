/-
Lemmas for C55: at the boundary of the tree, the face element of the parent is the parent of the face element.
-/
import Verif.Lemmas.FaceGluing
import Verif.Lemmas.FaceOuter

namespace T8.Neighbor
open Element

/-- The parent in the refinement of the tree of the class. -/
def Element.parent (S : P4ests) : Element → Element
  | .vertex v => .vertex (Dvertex.tree.parent v)
  | .line l => .line (Dline.tree.parent l)
  | .quad q => .quad (Cube.Cls.quad.tree.parent q)
  | .triangle t => .triangle ((Simplex.tree .tri).parent t)
  | .hex h => .hex ((Cube.Cls.hex S.M S.hM).tree.parent h)
  | .tet t => .tet ((Simplex.tree .tet).parent t)
  | .prism p => .prism (Prism.tree.parent p)
  | .pyramid p => .pyramid (Pyramid.tree.parent p)

/-- A point whose coordinates are multiples of the edge length. -/
def Even (b : Element) (x : Nat × Nat) : Prop :=
  match b with
  | .line l => 2 ^ (30 - l.level) ∣ x.1 ∧ x.2 = 0
  | .quad q => 2 ^ (30 - q.level) ∣ x.1 ∧ 2 ^ (30 - q.level) ∣ x.2
  | .triangle t => 2 ^ (29 - t.level) ∣ x.1 ∧ 2 ^ (29 - t.level) ∣ x.2
  | _ => x = (0, 0)

theorem pow_half {M l : Nat} (h0 : l + 1 ≤ M) : 2 ^ (M - l) = 2 * 2 ^ (M - (l + 1)) := by
  rw [show M - l = M - (l + 1) + 1 by omega, pow_succ, Nat.mul_comm]

/-- An interval of twice the length that contains an interval is determined. -/
theorem interval_unique {h a q x : Nat} (h0 : 0 < h) (ha : 2 * h ∣ a) (hq : 2 * h ∣ q) (h1 : a ≤ x) (h2 : x + h ≤ a + 2 * h) (h3 : q ≤ x)
    (h4 : x + h ≤ q + 2 * h) : a = q :=
  Standalone.multiple_unique ha hq h1 (by omega) h3 (by omega)

theorem line_unique {a q b : Dline.Line} (ha : Dline.Valid a) (hq : Dline.Valid q) (hb : Dline.Valid b) (la : a.level + 1 = b.level)
    (lq : q.level + 1 = b.level) (h : ∀ x : Nat × Nat, (Element.line b).Has x → Even (.line b) x → (Element.line a).Has x ∧ (Element.line q).Has x) :
    a = q := by
  have hM : Dline.maxLevel = 30 := rfl
  obtain ⟨a1, a2, a3⟩ := ha
  obtain ⟨q1, q2, q3⟩ := hq
  obtain ⟨b1, b2, b3⟩ := hb
  rw [hM] at *
  have hp := pow_half (M := 30) (l := a.level) (by omega)
  rw [la] at hp
  have hlq : q.level = a.level := by omega
  have h1 := h (b.x.toNat, 0) ⟨le_refl _, Nat.le_add_right _ _⟩ ⟨b3, rfl⟩
  have h2 := h (b.x.toNat + 2 ^ (30 - b.level), 0) ⟨Nat.le_add_right _ _, le_refl _⟩ ⟨(Nat.dvd_add_right b3).2 (dvd_refl _), rfl⟩
  simp only [Element.Has, Dline.Points, Set.mem_setOf_eq, hM, hlq, hp] at h1 h2
  rw [hlq, hp] at q3
  rw [hp] at a3
  have hpos : 0 < 2 ^ (30 - b.level) := Nat.two_pow_pos _
  have : a.x.toNat = q.x.toNat := interval_unique hpos a3 q3 (x := b.x.toNat) (by omega) (by omega) (by omega) (by omega)
  cases a; cases q
  simp only [Dline.Line.mk.injEq]
  exact ⟨BitVec.eq_of_toNat_eq this, hlq.symm⟩

theorem quad_unique {a q b : Standalone.Elem 2} (ha : Cube.Valid .quad a) (hq : Cube.Valid .quad q) (hb : Cube.Valid .quad b)
    (la : a.level + 1 = b.level) (lq : q.level + 1 = b.level)
    (h : ∀ x : Nat × Nat, (Element.quad b).Has x → Even (.quad b) x → (Element.quad a).Has x ∧ (Element.quad q).Has x) : a = q := by
  obtain ⟨⟨a1, a2⟩, a3⟩ := ha
  obtain ⟨⟨q1, q2⟩, q3⟩ := hq
  obtain ⟨⟨b1, b2⟩, b3⟩ := hb
  replace a2 : ∀ i : Fin 2, (a.coords i).toNat < 2 ^ 30 ∧ 2 ^ (30 - a.level) ∣ (a.coords i).toNat := a2
  replace q2 : ∀ i : Fin 2, (q.coords i).toNat < 2 ^ 30 ∧ 2 ^ (30 - q.level) ∣ (q.coords i).toNat := q2
  replace b2 : ∀ i : Fin 2, (b.coords i).toNat < 2 ^ 30 ∧ 2 ^ (30 - b.level) ∣ (b.coords i).toNat := b2
  replace b1 : b.level ≤ 30 := b1
  have hp := pow_half (M := 30) (l := a.level) (by omega)
  rw [la] at hp
  have hlq : q.level = a.level := by omega
  have hbox : ∀ x : Nat × Nat, (Element.quad b).Has x ↔ ((b.coords 0).toNat ≤ x.1 ∧ x.1 ≤ (b.coords 0).toNat + 2 ^ (30 - b.level)) ∧
      ((b.coords 1).toNat ≤ x.2 ∧ x.2 ≤ (b.coords 1).toNat + 2 ^ (30 - b.level)) :=
    fun x => ⟨fun hx => ⟨hx 0, hx 1⟩, fun hx i => by fin_cases i; exacts [hx.1, hx.2]⟩
  have hd : ∀ i : Fin 2, 2 ^ (30 - b.level) ∣ (b.coords i).toNat + 2 ^ (30 - b.level) := fun i => (Nat.dvd_add_right (b2 i).2).2 (dvd_refl _)
  have h1 := h ((b.coords 0).toNat, (b.coords 1).toNat) ((hbox _).2 (by simp)) ⟨(b2 0).2, (b2 1).2⟩
  have h2 := h ((b.coords 0).toNat + 2 ^ (30 - b.level), (b.coords 1).toNat + 2 ^ (30 - b.level)) ((hbox _).2 (by simp)) ⟨hd 0, hd 1⟩
  have hpos : 0 < 2 ^ (30 - b.level) := Nat.two_pow_pos _
  have key : ∀ i : Fin 2, (a.coords i).toNat = (q.coords i).toNat := by
    intro i
    have u1 := h1.1 i
    have u2 := h1.2 i
    have u3 := h2.1 i
    have u4 := h2.2 i
    have a2' := (a2 i).2
    have q2' := (q2 i).2
    simp only [Standalone.side, hlq, hp] at u1 u2 u3 u4 a2' q2'
    have e1 : pair ((b.coords 0).toNat, (b.coords 1).toNat) i = (b.coords i).toNat := by fin_cases i <;> rfl
    have e2 : pair ((b.coords 0).toNat + 2 ^ (30 - b.level), (b.coords 1).toNat + 2 ^ (30 - b.level)) i = (b.coords i).toNat + 2 ^ (30 - b.level) := by
      fin_cases i <;> rfl
    rw [e1] at u1 u2
    rw [e2] at u3 u4
    exact interval_unique hpos a2' q2' (x := (b.coords i).toNat) (by omega) (by omega) (by omega) (by omega)
  cases a; cases q
  simp only [Standalone.Elem.mk.injEq]
  exact ⟨funext fun i => BitVec.eq_of_toNat_eq (key i), hlq.symm⟩

/-- The points of triangles, for the two types. -/
theorem tri_points {t : Simplex.Elem 2} (ht : t.type < 2) (x : Nat × Nat) : (Element.triangle t).Has x ↔
    ((t.x 0).toNat ≤ x.1 ∧ x.1 ≤ (t.x 0).toNat + 2 ^ (29 - t.level)) ∧
    ((t.x 1).toNat ≤ x.2 ∧ x.2 ≤ (t.x 1).toNat + 2 ^ (29 - t.level)) ∧
    (t.type = 0 → x.2 + (t.x 0).toNat ≤ x.1 + (t.x 1).toNat) ∧ (t.type = 1 → x.1 + (t.x 1).toNat ≤ x.2 + (t.x 0).toNat) := by
  have r00 : Simplex.rank .tri 0 (0 : Fin 2) = 1 := by decide
  have r01 : Simplex.rank .tri 0 (1 : Fin 2) = 2 := by decide
  have r10 : Simplex.rank .tri 1 (0 : Fin 2) = 2 := by decide
  have r11 : Simplex.rank .tri 1 (1 : Fin 2) = 1 := by decide
  constructor
  · rintro ⟨h1, h2⟩
    refine ⟨h1 0, h1 1, fun h => ?_, fun h => ?_⟩
    · exact h2 0 1 (by rw [h, r00, r01]; decide)
    · exact h2 1 0 (by rw [h, r10, r11]; decide)
  · rintro ⟨h1, h2, h3, h4⟩
    refine ⟨show ∀ i : Fin 2, (t.x i).toNat ≤ pair x i ∧ pair x i ≤ (t.x i).toNat + 2 ^ (29 - t.level) from fun i => ?_, fun i j hij => ?_⟩
    · fin_cases i
      exacts [h1, h2]
    · obtain ht | ht : t.type = 0 ∨ t.type = 1 := by omega
      all_goals
        rw [ht] at hij
        change Fin 2 at i j
        fin_cases i <;> fin_cases j <;> first | exact absurd hij (by decide) | exact h3 ht | exact h4 ht

theorem tri_unique {a q b : Simplex.Elem 2} (ha : Simplex.Valid .tri a) (hq : Simplex.Valid .tri q) (hb : Simplex.Valid .tri b)
    (la : a.level + 1 = b.level) (lq : q.level + 1 = b.level)
    (h : ∀ x : Nat × Nat, (Element.triangle b).Has x → Even (.triangle b) x → (Element.triangle a).Has x ∧ (Element.triangle q).Has x) : a = q := by
  obtain ⟨⟨a1, a2⟩, a3, _⟩ := ha
  obtain ⟨⟨q1, q2⟩, q3, _⟩ := hq
  obtain ⟨⟨b1, b2⟩, b3, _⟩ := hb
  replace a2 : ∀ i : Fin 2, (a.x i).toNat < 2 ^ 29 ∧ 2 ^ (29 - a.level) ∣ (a.x i).toNat := a2
  replace q2 : ∀ i : Fin 2, (q.x i).toNat < 2 ^ 29 ∧ 2 ^ (29 - q.level) ∣ (q.x i).toNat := q2
  replace b2 : ∀ i : Fin 2, (b.x i).toNat < 2 ^ 29 ∧ 2 ^ (29 - b.level) ∣ (b.x i).toNat := b2
  replace b1 : b.level ≤ 29 := b1
  replace a3 : a.type < 2 := a3
  replace q3 : q.type < 2 := q3
  replace b3 : b.type < 2 := b3
  have hp := pow_half (M := 29) (l := a.level) (by omega)
  rw [la] at hp
  have hlq : q.level = a.level := by omega
  have hd : ∀ i : Fin 2, 2 ^ (29 - b.level) ∣ (b.x i).toNat + 2 ^ (29 - b.level) := fun i => (Nat.dvd_add_right (b2 i).2).2 (dvd_refl _)
  have hpos : 0 < 2 ^ (29 - b.level) := Nat.two_pow_pos _
  have h1 := h ((b.x 0).toNat, (b.x 1).toNat) ((tri_points b3 _).2 ⟨by simp, by simp, by intro _; omega, by intro _; omega⟩) ⟨(b2 0).2, (b2 1).2⟩
  have h2 := h ((b.x 0).toNat + 2 ^ (29 - b.level), (b.x 1).toNat + 2 ^ (29 - b.level))
    ((tri_points b3 _).2 ⟨by simp, by simp, by intro _; simp only; omega, by intro _; simp only; omega⟩) ⟨hd 0, hd 1⟩
  have h3 : b.type = 0 → _ := fun ht => h ((b.x 0).toNat + 2 ^ (29 - b.level), (b.x 1).toNat)
    ((tri_points b3 _).2 ⟨by simp, by simp, by intro _; simp only; omega, by intro _; omega⟩) ⟨hd 0, (b2 1).2⟩
  have h4 : b.type = 1 → _ := fun ht => h ((b.x 0).toNat, (b.x 1).toNat + 2 ^ (29 - b.level))
    ((tri_points b3 _).2 ⟨by simp, by simp, by intro _; omega, by intro _; simp only; omega⟩) ⟨(b2 0).2, hd 1⟩
  simp only [tri_points a3, tri_points q3, hlq, hp] at h1 h2 h3 h4
  obtain ⟨x1, x2⟩ := And.intro (a2 0).2 (a2 1).2
  obtain ⟨y1, y2⟩ := And.intro (q2 0).2 (q2 1).2
  rw [hp] at x1 x2
  rw [hlq, hp] at y1 y2
  generalize 2 ^ (29 - b.level) = k at *
  have e0 : (a.x 0).toNat = (q.x 0).toNat := interval_unique hpos x1 y1 (x := (b.x 0).toNat) (by omega) (by omega) (by omega) (by omega)
  have e1 : (a.x 1).toNat = (q.x 1).toNat := interval_unique hpos x2 y2 (x := (b.x 1).toNat) (by omega) (by omega) (by omega) (by omega)
  have et : a.type = q.type := by
    obtain ht | ht : b.type = 0 ∨ b.type = 1 := by omega
    · have := h3 ht
      omega
    · have := h4 ht
      omega
  have ex : a.x = q.x := by
    funext i
    refine BitVec.eq_of_toNat_eq ?_
    fin_cases i
    exacts [e0, e1]
  cases a; cases q
  simp only [Simplex.Elem.mk.injEq] at *
  exact ⟨ex, hlq.symm, et⟩

/-- The face elements: of the same tree, one level coarser, and with the corners of the element. -/
theorem face_parent {S : P4ests} {a b : Element} (hd : b.eclass.dim ≤ 2) (ha : a.Valid S) (hb : b.Valid S) (hab : a.eclass = b.eclass)
    (hl : a.level + 1 = b.level) (h : ∀ x, b.Has x → Even b x → a.Has x) : b.parent S = a := by
  have hl0 : 0 < b.level := by omega
  cases b with
  | vertex v =>
    cases a <;> simp only [Element.eclass, reduceCtorEq] at hab
    rename_i w
    have h1 := Dvertex.tree.level_parent v hb hl0
    replace h1 : (Dvertex.tree.parent v).level + 1 = v.level := h1
    replace hl : w.level + 1 = v.level := hl
    show Element.vertex (Dvertex.tree.parent v) = .vertex w
    congr 1
    generalize Dvertex.tree.parent v = z at *
    cases z; cases w
    simp only [Dvertex.Vertex.mk.injEq] at *
    omega
  | line l =>
    cases a <;> simp only [Element.eclass, reduceCtorEq] at hab
    rename_i w
    have hv := Dline.tree.valid_parent l hb hl0
    refine congrArg Element.line (line_unique hv ha hb (Dline.tree.level_parent l hb hl0) hl fun x hx he => ⟨?_, h x hx he⟩)
    exact Prism.line_desc_points hv (LeafNeighbor.parent_desc (T := Dline.tree) hb hl0) hx
  | quad q =>
    cases a <;> simp only [Element.eclass, reduceCtorEq] at hab
    rename_i w
    have hv := Cube.Cls.quad.tree.valid_parent q hb hl0
    refine congrArg Element.quad (quad_unique hv ha hb (Cube.Cls.quad.tree.level_parent q hb hl0) hl fun x hx he => ⟨fun i => ?_, h x hx he⟩)
    have h1 := Cube.Cls.quad.desc_box hv (LeafNeighbor.parent_desc (T := Cube.Cls.quad.tree) hb hl0) i
    have h2 := hx i
    exact ⟨h1.1.trans h2.1, h2.2.trans h1.2⟩
  | triangle t =>
    cases a <;> simp only [Element.eclass, reduceCtorEq] at hab
    rename_i w
    have hv := (Simplex.tree .tri).valid_parent t hb hl0
    refine congrArg Element.triangle (tri_unique hv ha hb ((Simplex.tree .tri).level_parent t hb hl0) hl fun x hx he => ⟨?_, h x hx he⟩)
    exact Simplex.desc_points (c := .tri) hv (LeafNeighbor.parent_desc (T := Simplex.tree .tri) hb hl0) hx
  | hex _ => exact absurd hd (by simp [Element.eclass, Eclass.dim])
  | tet _ => exact absurd hd (by simp [Element.eclass, Eclass.dim])
  | prism _ => exact absurd hd (by simp [Element.eclass, Eclass.dim])
  | pyramid _ => exact absurd hd (by simp [Element.eclass, Eclass.dim])

/-- A point with three coordinates. -/
def pt (x y z : Nat) : Fin 3 → Nat := fun i => if i.val = 0 then x else if i.val = 1 then y else z

theorem root_tri_face {p : Fin 2 → Nat} {F : Nat} (h1 : p 1 ≤ p 0) (h2 : p 0 ≤ 2 ^ 29) (f0 : F = 0 → p 0 = 2 ^ 29) (f1 : F = 1 → p 0 = p 1)
    (f2 : F = 2 → p 1 = 0) : p ∈ Simplex.Face .tri (Simplex.root .tri) F := by
  have r0 : Simplex.rank .tri 0 (0 : Fin 2) = 1 := by decide
  have r1 : Simplex.rank .tri 0 (1 : Fin 2) = 2 := by decide
  have hx : ∀ i : Fin 2, ((Simplex.root .tri).x i).toNat = 0 := fun i => rfl
  have key : ∀ P : Fin 2 → Prop, P 0 → P 1 → ∀ i, P i := fun P a b i => by fin_cases i; exacts [a, b]
  refine ⟨⟨?_, ?_⟩, fun h => ?_, fun h => ?_, ?_⟩
  · refine key _ ⟨Nat.zero_le _, ?_⟩ ⟨Nat.zero_le _, ?_⟩
    · show p 0 ≤ 0 + 2 ^ 29; omega
    · show p 1 ≤ 0 + 2 ^ 29; omega
  · refine key _ (key _ ?_ ?_) (key _ ?_ ?_)
    · intro h; exact absurd h (by decide)
    · intro _; show p 1 + 0 ≤ p 0 + 0; omega
    · intro h; exact absurd h (by decide)
    · intro h; exact absurd h (by decide)
  · refine key _ (fun _ => ?_) (fun h => absurd h (by decide))
    show p 0 = 0 + 2 ^ 29
    rw [f0 h, Nat.zero_add]
  · refine key _ (fun h => absurd h (by decide)) (fun _ => ?_)
    exact f2 h
  · refine key _ (key _ ?_ ?_) (key _ ?_ ?_)
    · intro h1 h2; omega
    · intro h1 _
      have : F = 1 := h1.symm.trans r0
      show p 0 + 0 = p 1 + 0
      rw [f1 this]
    · intro h1 h2; exfalso
      have : F = 2 := h1.symm.trans r1
      have : 1 = F + 1 := r0.symm.trans h2
      omega
    · intro h1 h2; omega

theorem root_tet_face {p : Fin 3 → Nat} {F : Nat} (h1 : p 1 ≤ p 2) (h2 : p 2 ≤ p 0) (h3 : p 0 ≤ 2 ^ 21) (f0 : F = 0 → p 0 = 2 ^ 21)
    (f1 : F = 1 → p 0 = p 2) (f2 : F = 2 → p 2 = p 1) (f3 : F = 3 → p 1 = 0) : p ∈ Simplex.Face .tet (Simplex.root .tet) F := by
  have r0 : Simplex.rank .tet 0 (0 : Fin 3) = 1 := by decide
  have r1 : Simplex.rank .tet 0 (1 : Fin 3) = 3 := by decide
  have r2 : Simplex.rank .tet 0 (2 : Fin 3) = 2 := by decide
  have key : ∀ P : Fin 3 → Prop, P 0 → P 1 → P 2 → ∀ i, P i := fun P a b c i => by fin_cases i; exacts [a, b, c]
  refine ⟨⟨?_, ?_⟩, fun h => ?_, fun h => ?_, ?_⟩
  · refine key _ ⟨Nat.zero_le _, ?_⟩ ⟨Nat.zero_le _, ?_⟩ ⟨Nat.zero_le _, ?_⟩
    · show p 0 ≤ 0 + 2 ^ 21; omega
    · show p 1 ≤ 0 + 2 ^ 21; omega
    · show p 2 ≤ 0 + 2 ^ 21; omega
  · refine key _ (key _ ?_ ?_ ?_) (key _ ?_ ?_ ?_) (key _ ?_ ?_ ?_) <;>
      first
      | (intro h; exact absurd h (by decide))
      | (intro _; show p 1 + 0 ≤ p 0 + 0; omega)
      | (intro _; show p 2 + 0 ≤ p 0 + 0; omega)
      | (intro _; show p 1 + 0 ≤ p 2 + 0; omega)
  · refine key _ (fun _ => ?_) (fun h => absurd h (by decide)) (fun h => absurd h (by decide))
    show p 0 = 0 + 2 ^ 21
    rw [f0 h, Nat.zero_add]
  · refine key _ (fun h => absurd h (by decide)) (fun _ => ?_) (fun h => absurd h (by decide))
    exact f3 h
  · have hr : ∀ i : Fin 3, Simplex.rank .tet 0 i = if i.val = 0 then 1 else if i.val = 1 then 3 else 2 := by decide
    intro i j hi hj
    change Fin 3 at i j
    replace hi : Simplex.rank .tet 0 i = F := hi
    replace hj : Simplex.rank .tet 0 j = F + 1 := hj
    show p i + 0 = p j + 0
    rw [hr] at hi hj
    fin_cases i <;> fin_cases j <;> simp at hi hj <;> first | omega | (have := f1 hi.symm; have := f2; simp; omega) | (have := f2 hi.symm; simp; omega)

theorem root_pyramid_face {p : Fin 3 → Nat} {F : Nat} (h1 : p 2 ≤ p 0) (h2 : p 2 ≤ p 1) (h3 : p 0 ≤ 2 ^ 21) (h4 : p 1 ≤ 2 ^ 21)
    (f0 : F = 0 → p 0 = p 2) (f1 : F = 1 → p 0 = 2 ^ 21) (f2 : F = 2 → p 1 = p 2) (f3 : F = 3 → p 1 = 2 ^ 21) (f4 : 4 ≤ F → p 2 = 0) :
    p ∈ Pyramid.Face Pyramid.root F := by
  have key : ∀ P : Fin 3 → Prop, P 0 → P 1 → P 2 → ∀ i, P i := fun P a b c i => by fin_cases i; exacts [a, b, c]
  rw [Pyramid.Face, if_pos (by decide : 6 ≤ Pyramid.root.type)]
  constructor
  · rw [Pyramid.Points, if_pos (by decide : 6 ≤ Pyramid.root.type)]
    refine ⟨key _ ⟨Nat.zero_le _, ?_⟩ ⟨Nat.zero_le _, ?_⟩ ⟨Nat.zero_le _, ?_⟩, key _ (fun _ => ?_) (fun _ => ?_) (fun h => absurd rfl h)⟩
    · show p 0 ≤ 0 + 2 ^ 21; omega
    · show p 1 ≤ 0 + 2 ^ 21; omega
    · show p 2 ≤ 0 + 2 ^ 21; omega
    · rw [if_pos (by decide : Pyramid.root.type = 6)]
      show p 2 + 0 ≤ p 0 + 0; omega
    · rw [if_pos (by decide : Pyramid.root.type = 6)]
      show p 2 + 0 ≤ p 1 + 0; omega
  · have hx : ∀ i, ((Pyramid.root.tet.x i).toNat : Int) = 0 := fun i => rfl
    have hl : Pyramid.root.level = 0 := rfl
    simp only [hx, hl, Pyramid.OnPlane, if_pos (by decide : Pyramid.root.type = 6)]
    split_ifs <;> omega

/-- A corner of an element of the face is the position of a point of the tree. -/
theorem lift {S : P4ests} {c : Eclass} {b : Element} (hb : b.Valid S) {F : Nat} (hF : F < c.numFaces) (ht : faceType c F = some b.eclass)
    (hl : b.level ≤ maxLevel c) {x : Nat × Nat} (hx : (rootOf b.eclass).Has x) (he : Even b x) :
    ∃ p, (rootOf c).InFace S F p ∧ faceCoord S c F p = x := by
  obtain ⟨u, v⟩ := x
  cases c with
  | vertex => exact absurd hF (by simp [Eclass.numFaces])
  | line =>
    rw [faceType, if_pos (show F < 2 from hF)] at ht
    cases b <;> simp only [Element.eclass, Option.some.injEq, reduceCtorEq] at ht
    exact ⟨fun _ => Dline.root.x.toNat + F * 2 ^ (Dline.maxLevel - Dline.root.level), rfl, he.symm⟩
  | quad =>
    have hF4 : F < 4 := hF
    rw [faceType, if_pos hF4] at ht
    cases b <;> simp only [Element.eclass, Option.some.injEq, reduceCtorEq] at ht
    obtain ⟨_, e2⟩ := he
    replace e2 : v = 0 := e2
    subst e2
    have hu : u ≤ 0 + 2 ^ 30 := hx.2
    have key : ∀ P : Fin 2 → Prop, P 0 → P 1 → ∀ i, P i := fun P a b i => by fin_cases i; exacts [a, b]
    refine ⟨fun i => if i.val = F / 2 then (F % 2) * 2 ^ 30 else u, ⟨fun i => ?_, fun i hi => ?_⟩, ?_⟩
    · show 0 ≤ (if i.val = F / 2 then (F % 2) * 2 ^ 30 else u) ∧ (if i.val = F / 2 then (F % 2) * 2 ^ 30 else u) ≤ 0 + 2 ^ 30
      split_ifs <;> omega
    · show (if i.val = F / 2 then (F % 2) * 2 ^ 30 else u) = 0 + (F % 2) * 2 ^ 30
      rw [if_pos hi, Nat.zero_add]
    · interval_cases F <;> simp [faceCoord]
  | triangle =>
    have hF3 : F < 3 := hF
    rw [faceType, if_pos hF3] at ht
    cases b <;> simp only [Element.eclass, Option.some.injEq, reduceCtorEq] at ht
    rename_i l
    obtain ⟨e1, e2⟩ := he
    replace e2 : v = 0 := e2
    subst e2
    have hu : u ≤ 0 + 2 ^ 30 := hx.2
    replace hl : l.level ≤ 29 := hl
    have hd : 2 ∣ u := (dvd_pow_self 2 (by omega)).trans e1
    obtain ⟨w, rfl⟩ := hd
    interval_cases F
    · exact ⟨pt (2 ^ 29) w 0, root_tri_face (by show w ≤ 2 ^ 29; omega) le_rfl (fun _ => rfl) (by omega) (by omega), rfl⟩
    · exact ⟨pt w w 0, root_tri_face le_rfl (by show w ≤ 2 ^ 29; omega) (by omega) (fun _ => rfl) (by omega), rfl⟩
    · exact ⟨pt w 0 0, root_tri_face (Nat.zero_le _) (by show w ≤ 2 ^ 29; omega) (by omega) (by omega) (fun _ => rfl), rfl⟩
  | hex =>
    have hF6 : F < 6 := hF
    rw [faceType, if_pos hF6] at ht
    cases b <;> simp only [Element.eclass, Option.some.injEq, reduceCtorEq] at ht
    rename_i q
    obtain ⟨e1, e2⟩ := he
    replace hl : q.level ≤ 18 := hl
    have hM := S.hM
    have hu : u ≤ 0 + 2 ^ 30 := (hx 0).2
    have hv : v ≤ 0 + 2 ^ 30 := (hx 1).2
    obtain ⟨a, rfl⟩ : 2 ^ (30 - S.M) ∣ u := (pow_dvd_pow 2 (by omega)).trans e1
    obtain ⟨b, rfl⟩ : 2 ^ (30 - S.M) ∣ v := (pow_dvd_pow 2 (by omega)).trans e2
    have hp : 2 ^ 30 = 2 ^ (30 - S.M) * 2 ^ S.M := by rw [← pow_add]; congr 1; omega
    rw [hp, Nat.zero_add] at hu hv
    have ha : a ≤ 2 ^ S.M := Nat.le_of_mul_le_mul_left hu (Nat.two_pow_pos _)
    have hb' : b ≤ 2 ^ S.M := Nat.le_of_mul_le_mul_left hv (Nat.two_pow_pos _)
    refine ⟨fun i => if i.val = F / 2 then (F % 2) * 2 ^ S.M else if i.val = if F / 2 = 0 then 1 else 0 then a else b, ⟨fun i => ?_, fun i hi => ?_⟩, ?_⟩
    · show 0 ≤ (if i.val = F / 2 then (F % 2) * 2 ^ S.M else if i.val = if F / 2 = 0 then 1 else 0 then a else b) ∧
        (if i.val = F / 2 then (F % 2) * 2 ^ S.M else if i.val = if F / 2 = 0 then 1 else 0 then a else b) ≤ 0 + 2 ^ S.M
      generalize 2 ^ S.M = r at *
      obtain h | h : F % 2 = 0 ∨ F % 2 = 1 := by omega
      all_goals rw [h]; split_ifs <;> omega
    · show (if i.val = F / 2 then (F % 2) * 2 ^ S.M else _) = 0 + (F % 2) * 2 ^ S.M
      rw [if_pos hi, Nat.zero_add]
    · interval_cases F <;> simp [faceCoord]
  | tet =>
    have hF4 : F < 4 := hF
    rw [faceType, if_pos hF4] at ht
    cases b <;> simp only [Element.eclass, Option.some.injEq, reduceCtorEq] at ht
    rename_i t
    obtain ⟨e1, e2⟩ := he
    replace hl : t.level ≤ 21 := hl
    obtain ⟨⟨_, h1⟩, _, h2, _⟩ := (tri_points (t := Simplex.root .tri) (by decide) _).1 hx
    have h3 : v + 0 ≤ u + 0 := ((tri_points (t := Simplex.root .tri) (by decide) _).1 hx).2.2.1 rfl
    replace h1 : u ≤ 0 + 2 ^ 29 := h1
    obtain ⟨a, rfl⟩ : 2 ^ 8 ∣ u := (pow_dvd_pow 2 (by omega)).trans e1
    obtain ⟨b, rfl⟩ : 2 ^ 8 ∣ v := (pow_dvd_pow 2 (by omega)).trans e2
    interval_cases F
    · exact ⟨pt (2 ^ 21) b a, root_tet_face (by show b ≤ a; omega) (by show a ≤ 2 ^ 21; omega) le_rfl (fun _ => rfl) (by omega) (by omega) (by omega), rfl⟩
    · exact ⟨pt a b a, root_tet_face (by show b ≤ a; omega) le_rfl (by show a ≤ 2 ^ 21; omega) (by omega) (fun _ => rfl) (by omega) (by omega), rfl⟩
    · exact ⟨pt a b b, root_tet_face le_rfl (by show b ≤ a; omega) (by show a ≤ 2 ^ 21; omega) (by omega) (by omega) (fun _ => rfl) (by omega), rfl⟩
    · exact ⟨pt a 0 b, root_tet_face (Nat.zero_le _) (by show b ≤ a; omega) (by show a ≤ 2 ^ 21; omega) (by omega) (by omega) (by omega) (fun _ => rfl), rfl⟩
  | prism =>
    have hF5 : F < 5 := hF
    rw [faceType] at ht
    by_cases hF3 : F < 3
    · rw [if_pos hF3] at ht
      cases b <;> simp only [Element.eclass, Option.some.injEq, reduceCtorEq] at ht
      rename_i q
      obtain ⟨e1, e2⟩ := he
      replace hl : q.level ≤ 21 := hl
      have hu : u ≤ 0 + 2 ^ 30 := (hx 0).2
      have hv : v ≤ 0 + 2 ^ 30 := (hx 1).2
      obtain ⟨w, rfl⟩ : 2 ∣ u := (dvd_pow_self 2 (by omega)).trans e1
      interval_cases F
      · exact ⟨pt (2 ^ 29) w v, ⟨root_tri_face (by show w ≤ 2 ^ 29; omega) le_rfl (fun _ => rfl) (by omega) (by omega), Nat.zero_le _, hv⟩, rfl⟩
      · exact ⟨pt w w v, ⟨root_tri_face le_rfl (by show w ≤ 2 ^ 29; omega) (by omega) (fun _ => rfl) (by omega), Nat.zero_le _, hv⟩, rfl⟩
      · exact ⟨pt w 0 v, ⟨root_tri_face (Nat.zero_le _) (by show w ≤ 2 ^ 29; omega) (by omega) (by omega) (fun _ => rfl), Nat.zero_le _, hv⟩, rfl⟩
    · rw [if_neg hF3, if_pos hF5] at ht
      cases b <;> simp only [Element.eclass, Option.some.injEq, reduceCtorEq] at ht
      rename_i t
      obtain ⟨w, hw⟩ : ∃ w, w = Dline.root.x.toNat + (F - 3) * 2 ^ (Dline.maxLevel - Dline.root.level) := ⟨_, rfl⟩
      refine ⟨pt u v w, ?_, ?_⟩
      · show (to2 (pt u v w), w) ∈ Prism.Face Prism.root F
        rw [Prism.Face, if_neg hF3]
        have e : to2 (pt u v w) = pair (u, v) := by funext i; fin_cases i <;> rfl
        rw [e]
        exact ⟨hx, hw⟩
      · rw [faceCoord, if_neg hF3]; rfl
  | pyramid =>
    have hF5 : F < 5 := hF
    rw [faceType] at ht
    by_cases hF4 : F < 4
    · rw [if_pos hF4] at ht
      cases b <;> simp only [Element.eclass, Option.some.injEq, reduceCtorEq] at ht
      rename_i t
      obtain ⟨e1, e2⟩ := he
      replace hl : t.level ≤ 21 := hl
      obtain ⟨⟨_, h1⟩, _, h2, _⟩ := (tri_points (t := Simplex.root .tri) (by decide) _).1 hx
      have h3 : v + 0 ≤ u + 0 := ((tri_points (t := Simplex.root .tri) (by decide) _).1 hx).2.2.1 rfl
      replace h1 : u ≤ 0 + 2 ^ 29 := h1
      obtain ⟨a, rfl⟩ : 2 ^ 8 ∣ u := (pow_dvd_pow 2 (by omega)).trans e1
      obtain ⟨b, rfl⟩ : 2 ^ 8 ∣ v := (pow_dvd_pow 2 (by omega)).trans e2
      have ha : a ≤ 2 ^ 21 := by omega
      have hba : b ≤ a := by omega
      have hb1 : b ≤ 2 ^ 21 := by omega
      interval_cases F
      · exact ⟨pt b a b, root_pyramid_face le_rfl hba hb1 ha (fun _ => rfl) (by omega) (by omega) (by omega) (by omega), by simp [faceCoord, pt]⟩
      · exact ⟨pt (2 ^ 21) a b, root_pyramid_face hb1 hba le_rfl ha (by omega) (fun _ => rfl) (by omega) (by omega) (by omega), by simp [faceCoord, pt]⟩
      · exact ⟨pt a b b, root_pyramid_face hba le_rfl ha hb1 (by omega) (by omega) (fun _ => rfl) (by omega) (by omega), by simp [faceCoord, pt]⟩
      · exact ⟨pt a (2 ^ 21) b, root_pyramid_face hba hb1 ha le_rfl (by omega) (by omega) (by omega) (fun _ => rfl) (by omega), by simp [faceCoord, pt]⟩
    · rw [if_neg hF4, if_pos hF5] at ht
      cases b <;> simp only [Element.eclass, Option.some.injEq, reduceCtorEq] at ht
      rename_i q
      obtain ⟨e1, e2⟩ := he
      replace hl : q.level ≤ 21 := hl
      have hu : u ≤ 0 + 2 ^ 30 := (hx 0).2
      have hv : v ≤ 0 + 2 ^ 30 := (hx 1).2
      obtain ⟨a, rfl⟩ : 2 ^ 9 ∣ u := (pow_dvd_pow 2 (by omega)).trans e1
      obtain ⟨b, rfl⟩ : 2 ^ 9 ∣ v := (pow_dvd_pow 2 (by omega)).trans e2
      refine ⟨pt a b 0, root_pyramid_face (Nat.zero_le _) (Nat.zero_le _) (by show a ≤ 2 ^ 21; omega) (by show b ≤ 2 ^ 21; omega) (by omega) (by omega)
        (by omega) (by omega) (fun _ => rfl), ?_⟩
      simp [faceCoord, pt, hF4]

/-- The points of face elements are inside of the root of their class. -/
theorem has_root {S : P4ests} {b : Element} (hb : b.Valid S) {x : Nat × Nat} (hx : b.Has x) : (rootOf b.eclass).Has x := by
  cases b with
  | line l =>
    have hs := Dline.side_le (e := l) hb
    obtain ⟨a1, a2⟩ := hx
    exact ⟨Nat.zero_le _, by show _ ≤ 0 + 2 ^ (30 - 0); have hm : Dline.maxLevel = 30 := rfl; rw [hm] at hs a2; omega⟩
  | quad q =>
    intro i
    have hs := Dline.side_le (e := ⟨q.coords i, q.level⟩) ⟨hb.1.1, hb.1.2 i⟩
    refine ⟨Nat.zero_le _, (hx i).2.trans (hs.trans (le_of_eq (by simp [Standalone.root, Standalone.side, Dline.maxLevel])))⟩
  | triangle t =>
    exact hb.2.2 hx
  | _ => trivial

theorem parent_facts {S : P4ests} {e : Element} (he : e.Valid S) (hl : 0 < e.level) :
    (e.parent S).Valid S ∧ (e.parent S).eclass = e.eclass ∧ (e.parent S).level + 1 = e.level := by
  cases e with
  | vertex v => exact ⟨Dvertex.tree.valid_parent v he hl, rfl, Dvertex.tree.level_parent v he hl⟩
  | line v => exact ⟨Dline.tree.valid_parent v he hl, rfl, Dline.tree.level_parent v he hl⟩
  | quad v => exact ⟨Cube.Cls.quad.tree.valid_parent v he hl, rfl, Cube.Cls.quad.tree.level_parent v he hl⟩
  | triangle v => exact ⟨(Simplex.tree .tri).valid_parent v he hl, rfl, (Simplex.tree .tri).level_parent v he hl⟩
  | hex v => exact ⟨(Cube.Cls.hex S.M S.hM).tree.valid_parent v he hl, rfl, (Cube.Cls.hex S.M S.hM).tree.level_parent v he hl⟩
  | tet v => exact ⟨(Simplex.tree .tet).valid_parent v he hl, rfl, (Simplex.tree .tet).level_parent v he hl⟩
  | prism v => exact ⟨Prism.tree.valid_parent v he hl, rfl, Prism.tree.level_parent v he hl⟩
  | pyramid v => exact ⟨Pyramid.tree.valid_parent v he hl, rfl, Pyramid.tree.level_parent v he hl⟩

theorem level_le {S : P4ests} {e : Element} (he : e.Valid S) : e.level ≤ maxLevel e.eclass := by
  cases e with
  | vertex v => exact Dvertex.tree.level_le v he
  | line v => exact Dline.tree.level_le v he
  | quad v => exact Cube.Cls.quad.tree.level_le v he
  | triangle v => exact (Simplex.tree .tri).level_le v he
  | hex v => exact (Cube.Cls.hex S.M S.hM).tree.level_le v he
  | tet v => exact (Simplex.tree .tet).level_le v he
  | prism v => exact Prism.tree.level_le v he
  | pyramid v => exact Pyramid.tree.level_le v he

/-- The face element of the parent is the parent of the face element. -/
theorem boundary_parent {S : P4ests} {e : Element} (he : e.Valid S) (hl : 0 < e.level) {f F : Nat} (hf : f < e.numFaces)
    (hF : F < e.eclass.numFaces) (hb : e.InRootFace S f F) {f' : Nat} (hf' : f' < (e.parent S).numFaces)
    (hb' : (e.parent S).InRootFace S f' F) (hin : ∀ p, e.InFace S f p → (e.parent S).InFace S f' p) {b : Element}
    (hbb : e.boundaryFace S f = some b) : (e.parent S).boundaryFace S f' = some (b.parent S) := by
  obtain ⟨hv, hc, hl'⟩ := parent_facts he hl
  obtain ⟨b', h1, h2, h3, h4, _⟩ := extrude_boundary he hf hF hb
  cases hbb.symm.trans h1
  have hF' : F < (e.parent S).eclass.numFaces := by rw [hc]; exact hF
  obtain ⟨pb, k1, k2, k3, k4, _⟩ := extrude_boundary hv hf' hF' hb'
  rw [hc, h2] at k2
  have hcl : pb.eclass = b.eclass := (Option.some.inj k2).symm
  have hdim : e.eclass.dim ≤ 3 := by cases e.eclass <;> decide
  have hd2 : b.eclass.dim ≤ 2 := by have := (faceType_vertices h2).2; omega
  rw [k1, face_parent hd2 k3 h3 hcl (by rw [k4, h4]; exact hl')]
  intro x hx hev
  obtain ⟨p, p1, p2⟩ := lift h3 hF h2 (by rw [h4]; exact level_le he) (has_root h3 hx) hev
  have q1 := (boundary_points he hf hF hb hbb p p1).2 (by rw [p2]; exact hx)
  have q2 := (boundary_points hv hf' hF' hb' k1 p (by rw [hc]; exact p1)).1 (hin p q1)
  rw [hc, p2] at q2
  exact q2

/-- The transformation of the face elements commutes with taking the parent. -/
theorem transform_parent {S : P4ests} (D : S.Documented) {b : Element} (hb : b.Valid S) (hl : 0 < b.level) {o : Nat}
    (ho : o < b.eclass.numVertices) (sign sm : Bool) {b' : Element} (h : b.transformFace o sign sm = some b') :
    (b.parent S).transformFace o sign sm = some (b'.parent S) := by
  cases b with
  | vertex v => cases h; rfl
  | line l =>
    cases h
    exact congrArg (fun x => some (Element.line x)) ((Dline.C12_line l hb o).2.2.2.1 hl)
  | quad q =>
    obtain ⟨q', h1, h2, h3, _, h5⟩ := Cube.C12_quad_partial S.quad D.1 true sign sm (Or.inl rfl) q q hb o ho
    replace h : (Cube.transformFace true q q o sign sm).map Element.quad = some b' := h
    rw [h1] at h
    cases h
    have hm : ∀ (x y : Standalone.Elem 2), Cube.transformFace true x y o sign sm = Cube.transformFace true x x o sign sm := by
      intro x y
      rw [Cube.transformFace_eq, Cube.transformFace_eq]
      simp
    have e1 : S.quad.parent q = Cube.Cls.quad.tree.parent q := D.1.parent_eq (c := .quad) hb hl
    have e2 : S.quad.parent q' = Cube.Cls.quad.tree.parent q' := D.1.parent_eq (c := .quad) h2 (by rw [h3]; exact hl)
    have h5 := h5 hl
    rw [hm, e1, e2] at h5
    exact congrArg (Option.map Element.quad) h5
  | triangle t =>
    cases h
    have ho' : o < 3 := ho
    exact congrArg (fun x => some (Element.triangle x)) ((Simplex.C12_tri t hb o (by omega) sign sm).2.2.2.2 hl)
  | _ => cases h

end T8.Neighbor
