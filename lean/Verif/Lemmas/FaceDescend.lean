/-
Generic lemmas about faces of descendants: the relation between a face of an element and the faces of its
descendants is determined by the faces of the children, and the first and the last descendant at a face are found by
always taking the first or the last child at the face.
-/
import Verif.Spec.Face
import Verif.Lemmas.RTree

namespace T8
namespace RTree

variable {T : RTree}

/-- The law `between` from the step to the parent. -/
theorem between_of_step {In : T.E → Nat → T.E → Nat → Prop}
    (self : ∀ x g e f, T.Valid x → In x g e f → In x g x g)
    (trans : ∀ x g y h e f, In x g y h → In y h e f → In x g e f)
    (step : ∀ e y i g f, T.Valid e → T.Desc e y → T.level y < T.maxLevel → i < T.nc y → In (T.child y i) g e f →
      ∃ h, In y h e f ∧ In (T.child y i) g y h)
    {x : T.E} {g : Nat} {y e : T.E} {f : Nat} (he : T.Valid e) (hy : T.Desc e y) (hx : T.Desc y x) (h : In x g e f) :
    ∃ h, In y h e f ∧ In x g y h := by
  induction hx generalizing g with
  | refl => exact ⟨g, h, self _ _ _ _ (hy.valid he) h⟩
  | @step z i hz hl hi ih =>
    obtain ⟨h0, a1, a2⟩ := step e z i g f he (hy.trans hz) hl hi h
    obtain ⟨h1, b1, b2⟩ := ih a1
    exact ⟨h1, b1, trans _ _ _ _ _ _ a2 b2⟩

section
variable {In : T.E → Nat → T.E → Nat → Prop} {ids : T.E → Nat → List Nat} {e : T.E} {f : Nat}

/-- Children of the descendants at a face are children at the face of the descendant. -/
theorem face_step
    (between : ∀ x g y, T.Desc e y → T.Desc y x → In x g e f → ∃ h, In y h e f ∧ In x g y h)
    (mem : ∀ y h i, T.Desc e y → T.level y < T.maxLevel → In y h e f → i < T.nc y → (∃ g, In (T.child y i) g y h) →
      i ∈ ids y h)
    (he : T.Valid e) {x : T.E} {g L : Nat} (hx : T.Desc e x) (hl : T.level e ≤ L) (hxl : T.level x = L + 1)
    (h : In x g e f) :
    ∃ y i h, T.Desc e y ∧ T.level y = L ∧ T.level y < T.maxLevel ∧ i < T.nc y ∧ x = T.child y i ∧ In y h e f ∧ i ∈ ids y h := by
  cases hx with
  | refl => omega
  | @step y i hy hyl hi =>
    rw [T.level_child _ _ (hy.valid he) hyl hi] at hxl
    obtain ⟨k, a1, a2⟩ := between _ g y hy (Desc.child_self hyl hi) h
    exact ⟨y, i, k, hy, by omega, hyl, hi, rfl, a1, mem y k i hy hyl a1 hi ⟨g, a2⟩⟩

/-- The first descendant at a face. -/
theorem first_of_step
    (between : ∀ x g y, T.Desc e y → T.Desc y x → In x g e f → ∃ h, In y h e f ∧ In x g y h)
    (unique : ∀ x g g', T.Desc e x → In x g e f → In x g' e f → g = g')
    (mem : ∀ y h i, T.Desc e y → T.level y < T.maxLevel → In y h e f → i < T.nc y → (∃ g, In (T.child y i) g y h) →
      i ∈ ids y h)
    (he : T.Valid e) (D : Nat → T.E) (h0 : D (T.level e) = e) (hef : In e f e f)
    (hD : ∀ L, T.level e ≤ L → L < T.maxLevel → ∀ g, T.Desc e (D L) → T.level (D L) = L → In (D L) g e f →
      ∃ i, i < T.nc (D L) ∧ D (L + 1) = T.child (D L) i ∧ (∃ g', In (D (L + 1)) g' e f) ∧ ∀ j ∈ ids (D L) g, i ≤ j)
    {L : Nat} (hl : T.level e ≤ L) (hL : L ≤ T.maxLevel) :
    T.Desc e (D L) ∧ T.level (D L) = L ∧ (∃ g, In (D L) g e f) ∧
    ∀ x g, T.Desc e x → T.level x = L → In x g e f → x = D L ∨ T.Before (D L) x := by
  induction L, hl using Nat.le_induction with
  | base =>
    rw [h0]
    exact ⟨Desc.refl, rfl, ⟨f, hef⟩, fun x g hx hxl _ => Or.inl (hx.eq_of_level he (by omega))⟩
  | succ L hl ih =>
    obtain ⟨d1, d2, ⟨g0, d3⟩, d4⟩ := ih (by omega)
    obtain ⟨i, hi, e1, e2, e3⟩ := hD L hl (by omega) g0 d1 d2 d3
    have hlt : T.level (D L) < T.maxLevel := by omega
    have dv := d1.valid he
    refine ⟨?_, ?_, e2, fun x g hx hxl hin => ?_⟩
    · rw [e1]; exact d1.step hlt hi
    · rw [e1, T.level_child _ _ dv hlt hi, d2]
    · obtain ⟨y, j, k, y1, y2, y3, y4, rfl, y5, y6⟩ := face_step between mem he hx hl hxl hin
      rcases d4 y k y1 y2 y5 with rfl | hb
      · have := unique _ _ _ d1 d3 y5
        subst this
        rcases Nat.lt_or_ge i j with hij | hij
        · right; rw [e1]; exact before_children dv hlt hij y4
        · left
          have := e3 j y6
          rw [e1, show i = j by omega]
      · right
        rw [e1]
        exact hb.desc (Desc.child_self hlt hi) (Desc.child_self y3 y4)

/-- The last descendant at a face. -/
theorem last_of_step
    (between : ∀ x g y, T.Desc e y → T.Desc y x → In x g e f → ∃ h, In y h e f ∧ In x g y h)
    (unique : ∀ x g g', T.Desc e x → In x g e f → In x g' e f → g = g')
    (mem : ∀ y h i, T.Desc e y → T.level y < T.maxLevel → In y h e f → i < T.nc y → (∃ g, In (T.child y i) g y h) →
      i ∈ ids y h)
    (he : T.Valid e) (D : Nat → T.E) (h0 : D (T.level e) = e) (hef : In e f e f)
    (hD : ∀ L, T.level e ≤ L → L < T.maxLevel → ∀ g, T.Desc e (D L) → T.level (D L) = L → In (D L) g e f →
      ∃ i, i < T.nc (D L) ∧ D (L + 1) = T.child (D L) i ∧ (∃ g', In (D (L + 1)) g' e f) ∧ ∀ j ∈ ids (D L) g, j ≤ i)
    {L : Nat} (hl : T.level e ≤ L) (hL : L ≤ T.maxLevel) :
    T.Desc e (D L) ∧ T.level (D L) = L ∧ (∃ g, In (D L) g e f) ∧
    ∀ x g, T.Desc e x → T.level x = L → In x g e f → x = D L ∨ T.Before x (D L) := by
  induction L, hl using Nat.le_induction with
  | base =>
    rw [h0]
    exact ⟨Desc.refl, rfl, ⟨f, hef⟩, fun x g hx hxl _ => Or.inl (hx.eq_of_level he (by omega))⟩
  | succ L hl ih =>
    obtain ⟨d1, d2, ⟨g0, d3⟩, d4⟩ := ih (by omega)
    obtain ⟨i, hi, e1, e2, e3⟩ := hD L hl (by omega) g0 d1 d2 d3
    have hlt : T.level (D L) < T.maxLevel := by omega
    have dv := d1.valid he
    refine ⟨?_, ?_, e2, fun x g hx hxl hin => ?_⟩
    · rw [e1]; exact d1.step hlt hi
    · rw [e1, T.level_child _ _ dv hlt hi, d2]
    · obtain ⟨y, j, k, y1, y2, y3, y4, rfl, y5, y6⟩ := face_step between mem he hx hl hxl hin
      rcases d4 y k y1 y2 y5 with rfl | hb
      · have := unique _ _ _ d1 d3 y5
        subst this
        rcases Nat.lt_or_ge j i with hij | hij
        · right; rw [e1]; exact before_children dv hlt hij hi
        · left
          have := e3 j y6
          rw [e1, show i = j by omega]
      · right
        rw [e1]
        exact hb.desc (Desc.child_self y3 y4) (Desc.child_self hlt hi)

end

end RTree
end T8
