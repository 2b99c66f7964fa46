/-
C55: trees of the element classes that are not connected with each other, and an example.
-/
import Verif.Props.Ghost
import Verif.Lemmas.FaceOuter

namespace T8.Ghost
open T8.RTree T8.Spec T8.GhostSpec T8.Owner T8.LeafNeighbor
open T8.Populate (LocalTree)

variable {T : Nat → RTree}

/-- The functions of element classes, for trees that are not connected with each other. -/
theorem disconnected_lawful {X : Env T} {In : ∀ g, (T g).E → Nat → (T g).E → Nat → Prop}
    {neighbor : ∀ g, (T g).E → Nat → Option ((T g).E × Nat)}
    (C : ∀ g, FaceClass (X.scheme g) (X.faces g) (In g) (X.parentFace g) (neighbor g)) (I : ∀ g, Inside (X.faces g) (In g) (neighbor g))
    (hX : X.neighbor = disconnected neighbor)
    (hmax : ∀ g a e, (T g).Valid a → (T g).Desc a e → (X.faces g).numFaces e ≤ X.maxNumFaces g a)
    (hlt : ∀ g e f k, (T g).Valid e → f < (X.faces g).numFaces e → X.parentFace g e f = some k → k < X.maxNumFaces g e) (K L : Nat) :
    X.Lawful In K L where
  scheme g := (C g).scheme
  faces g := (C g).faces
  parentFace g := (C g).parentFace
  maxNumFaces := hmax
  parentFace_lt := hlt
  neighbors := by rw [hX]; exact disconnected_neighborhood C I K L

end T8.Ghost

namespace T8.Ghost.Example
open T8.RTree T8.Spec T8.GhostSpec T8.Owner T8.LeafNeighbor T8.Owner.Example T8.Sample T8.Standalone
open T8.Populate (LocalTree)

/-- The arrays of the forest of `T8.Owner.Example`; the array of first descendants has one more entry. -/
def A' : Tables := { A with firstDescs := A.firstDescs ++ [0] }

theorem hA' : Matches D A' := by
  refine ⟨rfl, rfl, rfl, arrays.1, arrays.2, ?_⟩
  intro p hp
  obtain ⟨v, h1, h2⟩ := arrays.3 p hp
  refine ⟨v, ?_, h2⟩
  obtain rfl | rfl | rfl | rfl : p = 0 ∨ p = 1 ∨ p = 2 ∨ p = 3 := by omega
  all_goals exact h1

/-- The two quadrilaterals are not connected. -/
def env (rank : Int) : Env TQ where
  scheme _ := Cls.scheme .quad
  faces _ := Cls.faceScheme .quad
  parentFace _ := Cls.parentFace .quad
  maxNumFaces _ _ := 4
  neighbor := disconnected fun _ e f => faceNeighborInside (d := Cls.quad.dim) Cls.quad.maxLevel e f
  tables := A'
  rank := rank

theorem env_lawful (rank : Int) : (env rank).Lawful (fun _ => Cls.InFace .quad) 2 2 := by
  refine disconnected_lawful (X := env rank) (fun _ => Standalone.faceClass .quad) (fun _ => Standalone.insideLaw .quad) rfl ?_ ?_ 2 2
  · intro g a e _ _
    exact le_rfl
  · intro g e f k _ hf h
    have hf' : f / 2 < Cls.quad.dim := by
      have : f < 2 * Cls.quad.dim := hf
      omega
    replace h : Cls.parentFace .quad e f = some k := h
    rw [Cls.parentFace, dif_pos hf', faceParentFace] at h
    split_ifs at h
    exact Option.some.inj h ▸ hf

theorem setting {p : Nat} (hp : p < 4) : Setting (env p) (fun _ => Cls.InFace .quad) D p where
  lawful := env_lawful p
  complete _ _ := Sample.tiles
  arrays := hA'
  firstDescs := (by decide : 4 < A'.firstDescs.length)
  rank := rfl
  process := hp

/-- The trees of the processes. -/
def trees : Nat → List (LocalTree TQ)
  | 0 => [⟨0, 0, [leafN 0, leafN 1, leafN 2]⟩]
  | 1 => []
  | 2 => [⟨0, 0, [leafN 3, leafN 4, leafN 5, leafN 6]⟩, ⟨1, 1, [leafN 0, leafN 1, leafN 2]⟩]
  | _ => [⟨1, 1, [leafN 3, leafN 4, leafN 5, leafN 6]⟩]

theorem stores {p : Nat} (hp : p < 4) : Stores D p (trees p) := by
  obtain rfl | rfl | rfl | rfl : p = 0 ∨ p = 1 ∨ p = 2 ∨ p = 3 := by omega
  all_goals exact ⟨rfl, by simp [trees], by decide⟩

/-- The hypotheses of C55 are met. -/
theorem fill_example : ∃ G, fillRemoteV3 (env 2) (trees 2) = some G ∧ ∀ q : Nat, G.sent q =
    mustSend (env 2) (fun _ => Cls.InFace .quad) D 2 (trees 2) q := by
  obtain ⟨G, h1, _, h3, _⟩ := C55_fill_remote_partial (setting (p := 2) (by decide)) (stores (by decide))
  exact ⟨G, h1, h3⟩

/-- The first leaf of process 2 shares a face with a leaf of process 0. -/
theorem shares_example : SharesFace (env 2).neighbor (fun _ => Cls.InFace .quad) (fun g => ((env 2).faces g).numFaces)
    ⟨0, leafN 3⟩ ⟨0, leafN 1⟩ := by
  refine ⟨2, ⟨0, leafN 1, 3⟩, by decide, ?_, rfl, Or.inl Desc.refl⟩
  show ((faceNeighborInside (d := Cls.quad.dim) Cls.quad.maxLevel (leafN 3) 2).map fun n => (⟨0, n.1, n.2⟩ : BalanceSpec.Neighbor TQ)) = _
  rw [show faceNeighborInside (d := Cls.quad.dim) Cls.quad.maxLevel (leafN 3) 2 = some (leafN 1, 3) by decide +kernel]
  rfl

/-- So it is sent to process 0. -/
theorem sent_example : (⟨0, leafN 3, 0⟩ : Sent TQ) ∈ mustSend (env 2) (fun _ => Cls.InFace .quad) D 2 (trees 2) 0 := by
  classical
  refine List.mem_filter.2 ⟨by simp [indexed, trees], decide_eq_true ⟨by decide, by decide, ⟨0, leafN 1⟩, ?_, shares_example⟩⟩
  rw [local0]
  simp

/-- Processes 0 and 2 send leaves to each other. -/
theorem processes_example {G : Nat → Remotes TQ} (hG : ∀ p : Nat, p < 4 → fillRemoteV3 (env p) (trees p) = some (G p)) :
    (0 : Int) ∈ (G 2).processes ∧ (2 : Int) ∈ (G 0).processes := by
  have h2 : (0 : Int) ∈ (G 2).processes := by
    obtain ⟨G', h1, h2, h3, _⟩ := C55_fill_remote_partial (setting (p := 2) (by decide)) (stores (by decide))
    have h1' := hG 2 (by decide)
    replace h1' : fillRemoteV3 (env (2 : Nat)) (trees 2) = some (G 2) := h1'
    rw [h1] at h1'
    obtain rfl := Option.some.inj h1'
    rw [h2.processes, mem_processes h2]
    have := sent_example
    have h3 := h3 0
    intro hc
    replace h3 : (G 2).sent 0 = _ := h3
    rw [hc] at h3
    replace h3 : mustSend (env 2) (fun _ => Cls.InFace .quad) D 2 (trees 2) 0 = [] := h3.symm
    rw [h3] at this
    simp at this
  refine ⟨h2, ?_⟩
  exact (C55_processes_partial (X := env 0) (Y := fun p : Nat => env p) (trees := trees) (fun p hp => setting hp) (fun _ _ => ⟨rfl, rfl⟩)
    (fun p hp => stores hp) hG (p := 2) (q := 0) (by decide) (by decide)).1 h2

end T8.Ghost.Example
