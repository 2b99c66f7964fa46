/-
Specification of what `t8_forest_iterate_replace` has to report about an adaptation.
-/
import Verif.Spec.Adapt

namespace T8

/-- One call of the replace callback: what happened to the old leaves (1: refined, 0: kept, -1: coarsened, -2: removed), their number and
the index of the first one, the number of new leaves and the index of the first one (-1 if there is none). -/
structure Report where
  refine : Int
  numOld : Nat
  firstOld : Nat
  numNew : Nat
  firstNew : Int
  deriving DecidableEq

namespace RTree
variable (T : RTree)

/-- The sweep `Adapted` together with the report about each step. `j` is the number of new leaves before. -/
inductive Replaced {σ : Type} (leaves : List T.E) (canRefine : T.E → Prop) (offered : Nat → Nat → Prop)
    (ask : σ → Nat → Bool → List T.E → Int × σ) : Nat → Nat → σ → List T.E → List Report → Bool → σ → Prop
  | done {j : Nat} {s : σ} : Replaced leaves canRefine offered ask leaves.length j s [] [] false s
  | refine {i j : Nat} {s s' s'' : σ} {e b g out rs rm} : leaves[i]? = some e → T.Question leaves offered i e b g → ask s i b g = (1, s') →
      canRefine e → Replaced leaves canRefine offered ask (i + 1) (j + T.nc e) s' out rs rm s'' →
      Replaced leaves canRefine offered ask i j s ((List.range (T.nc e)).map (T.child e) ++ out) (⟨1, 1, i, T.nc e, j⟩ :: rs) rm s''
  | keep {i j : Nat} {s s' s'' : σ} {e b g a out rs rm} : leaves[i]? = some e → T.Question leaves offered i e b g → ask s i b g = (a, s') →
      (a = 0 ∨ (a = 1 ∧ ¬ canRefine e)) → Replaced leaves canRefine offered ask (i + 1) (j + 1) s' out rs rm s'' →
      Replaced leaves canRefine offered ask i j s (e :: out) (⟨0, 1, i, 1, j⟩ :: rs) rm s''
  | coarsen {i j : Nat} {s s' s'' : σ} {e g out rs rm} : leaves[i]? = some e → T.Question leaves offered i e true g →
      ask s i true g = (-1, s') → Replaced leaves canRefine offered ask (i + g.length) (j + 1) s' out rs rm s'' →
      Replaced leaves canRefine offered ask i j s (T.parent e :: out) (⟨-1, g.length, i, 1, j⟩ :: rs) rm s''
  | remove {i j : Nat} {s s' s'' : σ} {e b g out rs rm} : leaves[i]? = some e → T.Question leaves offered i e b g → ask s i b g = (-2, s') →
      Replaced leaves canRefine offered ask (i + 1) j s' out rs rm s'' →
      Replaced leaves canRefine offered ask i j s out (⟨-2, 1, i, 0, -1⟩ :: rs) true s''

/-- What a report says about the old leaves and the new leaves is true. -/
def TrueReport (old new : List T.E) (r : Report) : Prop :=
  (r.refine = 1 ∧ r.numOld = 1 ∧ ∃ e, old[r.firstOld]? = some e ∧ r.numNew = T.nc e ∧ 0 ≤ r.firstNew ∧
    (new.drop r.firstNew.toNat).take r.numNew = (List.range (T.nc e)).map (T.child e)) ∨
  (r.refine = 0 ∧ r.numOld = 1 ∧ r.numNew = 1 ∧ 0 ≤ r.firstNew ∧ ∃ e, old[r.firstOld]? = some e ∧ new[r.firstNew.toNat]? = some e) ∨
  (r.refine = -1 ∧ r.numNew = 1 ∧ 0 < r.numOld ∧ r.firstOld + r.numOld ≤ old.length ∧ 0 ≤ r.firstNew ∧
    ∃ p, new[r.firstNew.toNat]? = some p ∧ ∀ x ∈ (old.drop r.firstOld).take r.numOld, 0 < T.level x ∧ T.parent x = p) ∨
  (r.refine = -2 ∧ r.numOld = 1 ∧ r.numNew = 0 ∧ r.firstNew = -1 ∧ ∃ e, old[r.firstOld]? = some e ∧
    ∀ y ∈ new, ¬ T.Desc e y ∧ ¬ T.Desc y e)

/-- The indices of the old leaves of a report. -/
def _root_.T8.Report.old (r : Report) : List Nat := List.range' r.firstOld r.numOld

/-- The indices of the new leaves of a report. -/
def _root_.T8.Report.new (r : Report) : List Nat := List.range' r.firstNew.toNat r.numNew

end RTree
end T8
