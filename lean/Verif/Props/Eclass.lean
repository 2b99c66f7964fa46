/-
C46: the comparison of element classes.
-/
import Verif.Model.Eclass

namespace T8

/-- C46. On classes of equal dimension `t8_eclass_compare` violates no assertion, is -1, 0 or 1, is 0 exactly for equal
classes, is antisymmetric and transitive. (The domain is finite; the check covers all of it.) -/
theorem C46_compare : ∀ a b : Eclass, a.dim = b.dim → ∃ v, eclassCompare a b = some v ∧
    (v = -1 ∨ v = 0 ∨ v = 1) ∧ (v = 0 ↔ a = b) ∧ eclassCompare b a = some (-v) ∧
    ∀ c : Eclass, b.dim = c.dim → v = -1 → eclassCompare b c = some (-1) → eclassCompare a c = some (-1) := by
  intro a b h
  cases a <;> cases b <;> first | (exfalso; revert h; decide) | skip
  all_goals
    first
    | exact ⟨0, by decide, by decide, by decide, by decide, by intro c; cases c <;> decide⟩
    | exact ⟨1, by decide, by decide, by decide, by decide, by intro c; cases c <;> decide⟩
    | exact ⟨-1, by decide, by decide, by decide, by decide, by intro c; cases c <;> decide⟩

/-- C46. The order is the documented one (src/t8_eclass/t8_eclass.h:438-439): triangle before quadrilateral, and
tetrahedron, hexahedron, prism, pyramid. -/
theorem C46_order (a b : Eclass) (h : a.dim = b.dim) :
    eclassCompare a b = some (-1) ↔
      ∃ l ∈ [[Eclass.triangle, .quad], [.tet, .hex, .prism, .pyramid]], [a, b].Sublist l := by
  revert h; cases a <;> cases b <;> decide

end T8
