/-
C57 for the default scheme and conforming coarse meshes, and a concrete case.
-/
import Verif.Props.GhostExchange
import Verif.Props.GhostMessageDefault

namespace T8.Neighbor
open T8.RTree T8.Spec T8.Ghost T8.GhostSpec
open T8.BalanceSpec (Leaf)

variable {S : P4ests} {dim : Nat} {classes : List Eclass} {joins : List Stash.JoinFace}
variable {P L : Nat} {D : DistForest (forestTrees S classes) P classes.length L} {A : Owner.Tables} {α : Type}

/-- **C57** for the default scheme and conforming coarse meshes: after the exchange the array of data of each process has the values of its
leaves, followed by the values of its ghosts.

What is missing is the same as for `C55_default_partial`. -/
theorem C57_default_partial (hS : S.Documented) (hC : Conforming dim classes joins) (hD : D.Complete) (hA : Owner.Matches D A)
    (hlen : P < A.firstDescs.length) (hK : classes.length ≤ 2 ^ 63) (hN : ∀ p, p < P → (D.localLeaves p).length ≤ 39000000)
    {trees : Nat → List (Populate.LocalTree (forestTrees S classes))}
    (hst : ∀ p, p < P → Stores D p (trees p)) {G : Nat → Remotes (forestTrees S classes)}
    (hG : ∀ p : Nat, p < P → fillRemoteV3 (defaultEnv S dim classes joins A p) (trees p) = some (G p))
    {sent : Nat → List (Int × List UInt8)} (hsent : ∀ q, q < P → sendStart (defaultCodec S classes) (G q) = some (sent q))
    {arr : Nat → List (Int × List UInt8)} (harr : ∀ p, p < P → (arr p).Perm (delivered P sent p))
    {layer : Nat → Layer (forestTrees S classes)} {G' : Nat → Remotes (forestTrees S classes)}
    (hrec : ∀ p, p < P → receive (defaultCodec S classes) (G p) (arr p) = some (layer p, G' p)) (v : Leaf (forestTrees S classes) → α)
    {data : Nat → List α}
    (hdata : ∀ p, p < P → ∃ rest, data p = (D.localLeaves p).map v ++ rest ∧ rest.length = (layer p).numGhosts) (undef : α) :
    ∃ msgs : Nat → List (Int × List α), (∀ q, q < P → exchangeSend (trees q) (G' q) (data q) undef = some (msgs q)) ∧
    ∀ p, p < P → ∀ arrivals, arrivals.Perm (delivered P msgs p) →
      exchangeRecv (trees p) (layer p) (G' p) arrivals (data p) = some ((D.localLeaves p).map v ++ (layer p).seq.map v) :=
  C57_exchange_partial (default_collected hS hC hD hA hlen hK hN hst hG) hsent harr hrec v hdata undef

end T8.Neighbor

/-! ### A concrete case -/

namespace T8.Neighbor.GhostExample
open T8.RTree T8.Spec T8.Ghost T8.GhostSpec
open T8.BalanceSpec (Leaf)

variable (S : P4ests)

/-- The hypotheses of C57 are met for a prism and a pyramid on two processes. Process 0 has the prism, and after the exchange it has the value of
the first child of the pyramid. -/
theorem exchange_example (hS : S.Documented) (v : Leaf (T S) → Nat) : ∃ (layer : Nat → Layer (T S)) (G' : Nat → Remotes (T S))
    (sent : Nat → List (Int × List Nat)) (data : Nat → List Nat) (result : List Nat),
    exchangeSend (trees S 1) (G' 1) (data 1) 0 = some (sent 1) ∧
    exchangeRecv (trees S 0) (layer 0) (G' 0) (delivered 2 sent 0) (data 0) = some (v ⟨0, (T S 0).root⟩ :: result) ∧
    v ⟨1, q S 0⟩ ∈ result := by
  obtain ⟨G, hG, hmem⟩ := message_example S hS
  obtain ⟨layer, G', sent, data, result, h1, h2, h3⟩ := exchange_mem hG v 0 (p := 0) (by decide) hmem (by decide)
  refine ⟨layer, G', sent, data, result, h1 1 (by decide), ?_, h3⟩
  rw [h2, local0]
  rfl

end T8.Neighbor.GhostExample
