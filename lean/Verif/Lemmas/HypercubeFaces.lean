/-
The faces of the trees of `t8_cmesh_new_hypercube_pad_ext` inside of one cube and between neighbouring cubes.
-/
import Verif.Lemmas.HypercubeJoins

namespace T8.HypercubePad
open Neighbor Geometry

/-- A face of tree `s` of the cube at the origin. -/
def lface (c : Eclass) (s F : Nat) : List GridPoint := ((faceVertices c).getD F []).map fun v => cubeCorner (subVertex c s v)

/-- The direction of the next cube. -/
def axisOf (d : Nat) : GridPoint := fun k => if k.val + 1 = d then 1 else 0

/-- The first corner of a cube. -/
def cubePt (q : Cube3) : GridPoint := ![(q.2.2 : Int), q.2.1, q.1]

/-- The kinds are connections of existing faces of the same class. -/
theorem kinds_ok {c : Eclass} {d : Nat} (hd : d < 4) {k : Kind} (hk : k ∈ kindsOf c d) :
    k.s < treesPerCube c ∧ k.s' < treesPerCube c ∧ k.F < c.numFaces ∧ k.F' < c.numFaces ∧ faceType c k.F' = faceType c k.F ∧
      d ≤ c.dim ∧ ((faceType c k.F).elim 0 Eclass.numVertices > k.o) := by
  revert k
  interval_cases d <;> cases c <;> decide

/-- Both faces are the same. -/
theorem kinds_face {c : Eclass} {d : Nat} (hd : d < 4) {k : Kind} (hk : k ∈ kindsOf c d) :
    (∀ u ∈ lface c k.s k.F, u - axisOf d ∈ lface c k.s' k.F') ∧ ∀ u ∈ lface c k.s' k.F', u + axisOf d ∈ lface c k.s k.F := by
  revert k
  interval_cases d <;> cases c <;> decide +kernel

/-- Each face belongs to one connection. -/
theorem kinds_unique {c : Eclass} {d₁ d₂ : Nat} (h₁ : d₁ < 4) (h₂ : d₂ < 4) {k₁ k₂ : Kind} (hk₁ : k₁ ∈ kindsOf c d₁) (hk₂ : k₂ ∈ kindsOf c d₂) :
    (k₁.s = k₂.s → k₁.F = k₂.F → d₁ = d₂ ∧ k₁ = k₂) ∧ (k₁.s = k₂.s' → k₁.F = k₂.F' → False) ∧
      (k₁.s' = k₂.s' → k₁.F' = k₂.F' → d₁ = d₂ ∧ k₁ = k₂) := by
  have key : ∀ k₁ ∈ kindsOf c d₁, ∀ k₂ ∈ kindsOf c d₂,
      ((k₁.s, k₁.F) = (k₂.s, k₂.F) → d₁ = d₂ ∧ k₁ = k₂) ∧ (k₁.s, k₁.F) ≠ (k₂.s', k₂.F') ∧
      ((k₁.s', k₁.F') = (k₂.s', k₂.F') → d₁ = d₂ ∧ k₁ = k₂) := by
    interval_cases d₁ <;> interval_cases d₂ <;> cases c <;> decide +kernel
  obtain ⟨a, b, e⟩ := key _ hk₁ _ hk₂
  exact ⟨fun h h' => a (by rw [h, h']), fun h h' => b (by rw [h, h']), fun h h' => e (by rw [h, h'])⟩

/-- Two faces of cubes at the distance `v` are the same only if they are connected. -/
def OnlyKinds (c : Eclass) (s F s' F' : Nat) (v : GridPoint) : Prop :=
  (∀ u ∈ lface c s F, u - v ∈ lface c s' F') → (∀ u ∈ lface c s' F', u + v ∈ lface c s F) →
    (s = s' ∧ F = F' ∧ v = 0) ∨ ∃ d ∈ List.range 4, ∃ k ∈ kindsOf c d, (k.s = s ∧ k.F = F ∧ k.s' = s' ∧ k.F' = F' ∧ v = axisOf d) ∨
      (k.s' = s ∧ k.F' = F ∧ k.s = s' ∧ k.F = F' ∧ v = -axisOf d)

instance (c : Eclass) (s F s' F' : Nat) (v : GridPoint) : Decidable (OnlyKinds c s F s' F' v) := by unfold OnlyKinds; infer_instance

/-- There are no other faces of neighbouring cubes that are the same. -/
theorem kinds_complete {c : Eclass} (hc : c ≠ .pyramid) {s F s' F' : Nat} (hs : s < treesPerCube c) (hF : F < c.numFaces)
    (hs' : s' < treesPerCube c) (hF' : F' < c.numFaces) {v : GridPoint} (hv : ∀ k, v k ∈ [(-1 : Int), 0, 1]) : OnlyKinds c s F s' F' v := by
  have key : ∀ x ∈ [(-1 : Int), 0, 1], ∀ y ∈ [(-1 : Int), 0, 1], ∀ z ∈ [(-1 : Int), 0, 1],
      ∀ s < treesPerCube c, ∀ F < c.numFaces, ∀ s' < treesPerCube c, ∀ F' < c.numFaces, OnlyKinds c s F s' F' ![x, y, z] := by
    cases c <;> first | exact absurd rfl hc | decide +kernel
  have e : v = ![v 0, v 1, v 2] := by funext k; fin_cases k <;> rfl
  rw [e]
  exact key _ (hv 0) _ (hv 1) _ (hv 2) s hs F hF s' hs' F' hF'

/-- Corner `i` of the face class `b`, see `symCorner`. -/
def sc (b : Eclass) (i : Nat) : Int × Int :=
  match b with
  | .line => (2 ^ 30 * (unit .line i 0 : Int), 0)
  | .quad => (2 ^ 30 * (unit .quad i 0 : Int), 2 ^ 30 * (unit .quad i 1 : Int))
  | .triangle => (2 ^ 29 * (unit .triangle i 0 : Int), 2 ^ 29 * (unit .triangle i 1 : Int))
  | _ => (0, 0)

theorem symCorner_sc (S : P4ests) {b : Eclass} (hb : b.dim ≤ 2) {i : Nat} (hi : i < b.numVertices) : symCorner S b i = sc b i := by
  cases b with
  | vertex => have : i < 1 := hi; interval_cases i; simp only [symCorner, rootLength, sc]; decide +kernel
  | line => have : i < 2 := hi; interval_cases i <;> simp only [symCorner, rootLength, sc] <;> decide +kernel
  | quad => have : i < 4 := hi; interval_cases i <;> simp only [symCorner, rootLength, sc] <;> decide +kernel
  | triangle => have : i < 3 := hi; interval_cases i <;> simp only [symCorner, rootLength, sc] <;> decide +kernel
  | _ => exact absurd hb (by decide)

/-- The corners that an orientation identifies are the same points. -/
def Fits (c : Eclass) (b : Eclass) (s F s' F' o : Nat) (v : GridPoint) : Prop :=
  ∀ i < b.numVertices, ∀ j < b.numVertices,
    (if F ≤ F' then sc b j = symmetry b o (Neighbor.flip c F c F') (sc b i) else sc b i = symmetry b o (Neighbor.flip c F c F') (sc b j)) →
    cubeCorner (subVertex c s (((faceVertices c).getD F []).getD i 0)) = cubeCorner (subVertex c s' (((faceVertices c).getD F' []).getD j 0)) + v

instance (c b : Eclass) (s F s' F' o : Nat) (v : GridPoint) : Decidable (Fits c b s F s' F' o v) := by unfold Fits; infer_instance

theorem kinds_fit {c : Eclass} {d : Nat} (hd : d < 4) {k : Kind} (hk : k ∈ kindsOf c d) {b : Eclass} (hb : faceType c k.F = some b) :
    Fits c b k.s k.F k.s' k.F' k.o (axisOf d) ∧ Fits c b k.s' k.F' k.s k.F k.o (-axisOf d) := by
  have key : ∀ k ∈ kindsOf c d, Fits c ((faceType c k.F).getD .vertex) k.s k.F k.s' k.F' k.o (axisOf d) ∧
      Fits c ((faceType c k.F).getD .vertex) k.s' k.F' k.s k.F k.o (-axisOf d) := by
    interval_cases d <;> cases c <;> decide +kernel
  have := key k hk
  rwa [hb] at this

end T8.HypercubePad
