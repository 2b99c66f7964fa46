/-
Specification of the adaptation of a leaf sequence.

`Adapted` describes the result of a single sweep over the leaves in which a callback with memory (state `σ`) decides. It does not
refer to the model.
-/
import Verif.Spec.Element

namespace T8
namespace RTree
variable (T : RTree)

/-- A family begins at leaf `i`: the next `n` leaves are all children of an element, in order. -/
def FamilyAt (leaves : List T.E) (i n : Nat) : Prop := ∃ p, n = T.nc p ∧ T.IsFamilyOf ((leaves.drop i).take n) p

variable {T} in
/-- The leaves `i, …, i + n - 1` of a sequence are children of `p`, and no other leaf is in `p`, also not those in `pre` and
`post` before and behind the sequence. -/
structure GroupAt (pre leaves post : List T.E) (i n : Nat) (p : T.E) : Prop where
  pos : 0 < n
  le : i + n ≤ leaves.length
  valid : T.Valid p
  level : T.level p < T.maxLevel
  all : ∀ x ∈ (leaves.drop i).take n, T.parent x = p ∧ T.level x = T.level p + 1
  before : ∀ x ∈ pre ++ leaves.take i, ¬ T.Desc p x
  after : ∀ x ∈ leaves.drop (i + n) ++ post, ¬ T.Desc p x

/-- The question asked at leaf `e` with index `i`: about the family there, if one is `offered`, otherwise about the single
leaf. -/
def Question (leaves : List T.E) (offered : Nat → Nat → Prop) (i : Nat) (e : T.E) (family : Bool) (group : List T.E) : Prop :=
  (family = true ∧ ∃ n, offered i n ∧ group = (leaves.drop i).take n) ∨
  (family = false ∧ (∀ n, ¬ offered i n) ∧ group = [e])

/-- `Adapted … i s out removed s'`: sweeping over the leaves from index `i` on in state `s`, asking one question after the
other and doing what is answered (1: refine, 0: keep, -1: coarsen, -2: remove), the new leaves are `out` and the state
is `s'` in the end. `removed` tells if a leaf was removed. -/
inductive Adapted {σ : Type} (leaves : List T.E) (canRefine : T.E → Prop) (offered : Nat → Nat → Prop)
    (ask : σ → Nat → Bool → List T.E → Int × σ) : Nat → σ → List T.E → Bool → σ → Prop
  | done {s : σ} : Adapted leaves canRefine offered ask leaves.length s [] false s
  | refine {i s s' s'' e b g out rm} : leaves[i]? = some e → T.Question leaves offered i e b g → ask s i b g = (1, s') →
      canRefine e → Adapted leaves canRefine offered ask (i + 1) s' out rm s'' →
      Adapted leaves canRefine offered ask i s ((List.range (T.nc e)).map (T.child e) ++ out) rm s''
  | keep {i s s' s'' e b g a out rm} : leaves[i]? = some e → T.Question leaves offered i e b g → ask s i b g = (a, s') →
      (a = 0 ∨ (a = 1 ∧ ¬ canRefine e)) → Adapted leaves canRefine offered ask (i + 1) s' out rm s'' →
      Adapted leaves canRefine offered ask i s (e :: out) rm s''
  | coarsen {i s s' s'' e g out rm} : leaves[i]? = some e → T.Question leaves offered i e true g →
      ask s i true g = (-1, s') → Adapted leaves canRefine offered ask (i + g.length) s' out rm s'' →
      Adapted leaves canRefine offered ask i s (T.parent e :: out) rm s''
  | remove {i s s' s'' e b g out rm} : leaves[i]? = some e → T.Question leaves offered i e b g → ask s i b g = (-2, s') →
      Adapted leaves canRefine offered ask (i + 1) s' out rm s'' →
      Adapted leaves canRefine offered ask i s out true s''

end RTree
end T8
