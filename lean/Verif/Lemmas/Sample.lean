/-
A small mesh for the examples beside the theorems: a quadrilateral tree in which child 1 of the root is refined.
-/
import Verif.Lemmas.Tiling
import Verif.Props.StandaloneScheme

namespace T8.Sample
open T8.RTree T8.Standalone

/-- The quadrilateral tree. -/
abbrev Q : RTree := Cls.tree .quad

/-- Child `i` of the root. -/
def c (i : Nat) : Q.E := Q.child Q.root i

/-- Child `i` of child 1 of the root. -/
def d (i : Nat) : Q.E := Q.child (c 1) i

/-- The seven leaves. -/
def leaves : List Q.E := [c 0, d 0, d 1, d 2, d 3, c 2, c 3]

theorem valid_c {i : Nat} (h : i < 4) : Q.Valid (c i) := Q.valid_child _ _ Q.valid_root (by decide) h

theorem level_c {i : Nat} (h : i < 4) : Q.level (c i) = 1 := Q.level_child _ _ Q.valid_root (by decide) h

theorem lt_max {i : Nat} (h : i < 4) : Q.level (c i) < Q.maxLevel := by rw [level_c h]; decide

theorem valid_d {i : Nat} (h : i < 4) : Q.Valid (d i) := Q.valid_child _ _ (valid_c (by decide)) (lt_max (by decide)) h

theorem tiles_c1 : Q.Tiles (c 1) [d 0, d 1, d 2, d 3] :=
  Tiles.node (T := Q) (c 1) (fun i => [d i]) (lt_max (by decide)) (fun i _ => Tiles.leaf (T := Q) (d i))

theorem tiles : Q.Tiles Q.root leaves := by
  refine Tiles.node (T := Q) Q.root (fun i => if i = 1 then [d 0, d 1, d 2, d 3] else [c i]) (by decide) ?_
  intro i _
  by_cases h : i = 1
  · subst h
    exact tiles_c1
  · simp only [if_neg h]
    exact Tiles.leaf (T := Q) (c i)

theorem ordered : Q.Ordered leaves := tiles.ordered Q.valid_root

/-- The leaves of a middle process. -/
theorem ordered_part : Q.Ordered [d 1, d 2, d 3, c 2] := ordered.sublist (by
  show [d 1, d 2, d 3, c 2].Sublist [c 0, d 0, d 1, d 2, d 3, c 2, c 3]
  exact List.Sublist.cons _ (List.Sublist.cons _ (List.Sublist.cons_cons _ (List.Sublist.cons_cons _
    (List.Sublist.cons_cons _ (List.Sublist.cons_cons _ (List.nil_sublist _)))))))

end T8.Sample
