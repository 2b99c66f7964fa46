import Verif.Model.Sphere

/-!
# Specification: spheres over cubes
-/

namespace T8.Sphere
open T8 T8.CadGeometry

/-- The point of the sphere of radius `R` around the origin in the direction of `q`. -/
noncomputable def onSphere (R : ℝ) (q : Pt) : Pt := (R / Real.sqrt (q 0 ^ 2 + q 1 ^ 2 + q 2 ^ 2)) • q

/-- The point is on the sphere of radius `R` around the origin. -/
def OnSphere (R : ℝ) (q : Pt) : Prop := q 0 ^ 2 + q 1 ^ 2 + q 2 ^ 2 = R ^ 2

/-- The direction that belongs to a point of the surface of the cube `[-1, 1]^3`: equal angles along the edges. -/
noncomputable def direction (u : Pt) : Pt := fun j => Real.tan (Real.pi / 4 * u j)

/-- The tree lies in the face of the cube `[-d, d]^3` where coordinate `k` is `σ d`, and its vertices are ordered such that its normal points to the outside. -/
structure InCubeFace (V : Nat → Pt) (c : Eclass) (k : Fin 3) (σ d : ℝ) : Prop where
  sign : σ = 1 ∨ σ = -1
  pos : 0 < d
  face : ∀ v < (if c = .quad then 4 else 3), V v k = σ * d
  outward : 0 < σ * ((V 1 (k + 1) - V 0 (k + 1)) * (V 2 (k + 2) - V 0 (k + 2)) - (V 1 (k + 2) - V 0 (k + 2)) * (V 2 (k + 1) - V 0 (k + 1)))

end T8.Sphere
