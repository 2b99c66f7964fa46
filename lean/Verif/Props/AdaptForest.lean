/-
C17, C18: adaptation of all trees of a forest, and C18: how recursive refinement loses a leaf.
-/
import Verif.Props.Adapt

namespace T8.Adapt
open T8.RTree T8.Populate

variable {σ : Type}

section Forest
variable {C : Type} {T : C → RTree} {S : ∀ c, Scheme (T c)}

/-- What the adaptation of the trees from number `k` on does: one sweep over each tree, the callback keeping its state. -/
inductive AdaptedTrees (maxlevel : Nat) (cb : ∀ c, Callback σ (T c).E) :
    Nat → List (LocalTree T) → σ → List (LocalTree T) → Bool → σ → Prop
  | nil {k s} : AdaptedTrees maxlevel cb k [] s [] false s
  | cons {k : Nat} {t : LocalTree T} {ts ts' : List (LocalTree T)} {out : List (T t.cls).E} {s s' s'' : σ} {rm rm' : Bool} :
      (T t.cls).Adapted t.leaves (fun e => (T t.cls).level e < maxlevel ∧ (T t.cls).level e < (T t.cls).maxLevel)
        ((T t.cls).FamilyAt t.leaves) (fun st i b g => cb t.cls st k i b g) 0 s out rm s' →
      AdaptedTrees maxlevel cb (k + 1) ts s' ts' rm' s'' →
      AdaptedTrees maxlevel cb k (t :: ts) s (⟨t.gtree, t.cls, out⟩ :: ts') (rm || rm') s''

open Classical in
/-- C17 for the trees of a process: the result is that of the specified sweep; the program aborts exactly if
a tree that had leaves has none any more. -/
theorem C17_adapt_trees (hS : ∀ c, (S c).Lawful) {cfg : Cfg} {cb : ∀ c, Callback σ (T c).E} (hcb : ∀ c, Legal (cb c))
    (maxChildren : C → Nat) (hrec : cfg.recursive = false) (hinc : cfg.incomplete = false) :
    ∀ (trees : List (LocalTree T)) (k : Nat) (rm0 : Bool) (s0 : σ),
    (∀ t ∈ trees, (T t.cls).Ordered t.leaves ∧ ((S t.cls).ExactFamilies ∨ (T t.cls).Segment t.leaves) ∧
      ∀ x ∈ t.leaves, (T t.cls).level x ≤ cfg.maxlevel) →
    ∃ trees' rm s', AdaptedTrees cfg.maxlevel cb k trees s0 trees' rm s' ∧
      adaptTrees S maxChildren cfg cb trees k rm0 s0 =
        if ∃ (j : Nat) (t t' : LocalTree T), trees[j]? = some t ∧ trees'[j]? = some t' ∧ t.leaves ≠ [] ∧ t'.leaves = [] then none
        else some (trees', rm0 || rm, s') := by
  intro trees
  induction trees with
  | nil => intro k rm0 s0 _; exact ⟨[], false, s0, .nil, by rw [if_neg (by simp)]; simp [adaptTrees]⟩
  | cons t ts ih =>
    intro k rm0 s0 h
    obtain ⟨ht, hcov, hl⟩ := h t (by simp)
    have hstep : ∃ out rm s', (T t.cls).Adapted t.leaves
        (fun e => (T t.cls).level e < cfg.maxlevel ∧ (T t.cls).level e < (T t.cls).maxLevel)
        ((T t.cls).FamilyAt t.leaves) (fun st i b g => cb t.cls st k i b g) 0 s0 out rm s' ∧
        adaptTree (S t.cls) cfg (cb t.cls) k (maxChildren t.cls) t.leaves rm0 s0 =
          if t.leaves ≠ [] ∧ out = [] then none else some (out, rm0 || rm, s') := by
      by_cases hne : t.leaves = []
      · refine ⟨[], false, s0, ?_, ?_⟩
        · have := Adapted.done (T := T t.cls) (leaves := t.leaves)
            (canRefine := fun e => (T t.cls).level e < cfg.maxlevel ∧ (T t.cls).level e < (T t.cls).maxLevel)
            (offered := (T t.cls).FamilyAt t.leaves) (ask := fun st i b g => cb t.cls st k i b g) (s := s0)
          rw [show t.leaves.length = 0 by simp [hne]] at this
          exact this
        · rw [if_neg (by simp [hne]), adaptTree, if_neg (by simp [hne])]; simp
      · obtain ⟨out, rm, s', h1, h2⟩ := C17_adapt_tree (hS t.cls) (hcb t.cls) (pre := []) (post := []) (lt := k)
          (by simpa using ht) ⟨by simp, by simp⟩ hcov hl hne hrec hinc (maxChildren t.cls) rm0 s0
        refine ⟨out, rm, s', h1, ?_⟩
        rw [h2]
        by_cases ho : out = [] <;> simp [ho, hne]
    obtain ⟨out, rm, s', h1, h2⟩ := hstep
    obtain ⟨ts', rm', s'', h3, h4⟩ := ih (k + 1) (rm0 || rm) s' (fun u hu => h u (by simp [hu]))
    refine ⟨_, _, _, .cons h1 h3, ?_⟩
    rw [adaptTrees, h2]
    by_cases hc : t.leaves ≠ [] ∧ out = []
    · rw [if_pos hc, if_pos ⟨0, t, _, rfl, rfl, hc.1, hc.2⟩]; rfl
    · rw [if_neg hc]
      simp only [Option.bind_eq_bind, Option.bind_some]
      rw [h4]
      by_cases hd : ∃ (j : Nat) (t t' : LocalTree T), ts[j]? = some t ∧ ts'[j]? = some t' ∧ t.leaves ≠ [] ∧ t'.leaves = []
      · rw [if_pos hd, if_pos]
        · rfl
        · obtain ⟨j, u, u', a1, a2, a3, a4⟩ := hd
          exact ⟨j + 1, u, u', by simpa using a1, by simpa using a2, a3, a4⟩
      · rw [if_neg hd, if_neg]
        · simp only [Option.bind_some, Bool.or_assoc]
        · rintro ⟨j, u, u', a1, a2, a3, a4⟩
          cases j with
          | zero =>
            simp only [List.getElem?_cons_zero, Option.some.injEq] at a1 a2
            subst a1; subst a2
            exact hc ⟨a3, a4⟩
          | succ j => exact hd ⟨j, u, u', by simpa using a1, by simpa using a2, a3, a4⟩

/-- C18 for the trees of a process. Tree `k` may have further leaves `pre k`, `post k` on other processes; each tree stays
tiled. Only the first tree can have leaves on earlier processes and only the last one on later ones. Recursive adaptation is
included if the callback never asks to refine an element of the maximum level. -/
theorem C18_forest (hS : ∀ c, (S c).Lawful) {cfg : Cfg} {cb : ∀ c, Callback σ (T c).E} (maxChildren : C → Nat)
    (hcb : ∀ c, Legal (cb c) ∧ NoRemove (cb c)) (hinc : cfg.incomplete = false)
    (hrec : cfg.recursive = true → ∀ c, NoVainRefine (T c) cfg.maxlevel (cb c)) (trees : List (LocalTree T)) (s0 : σ)
    (pre post : (k : Nat) → (t : LocalTree T) → List (T t.cls).E)
    (h : ∀ (k : Nat) (t : LocalTree T), trees[k]? = some t → (T t.cls).Tiles (T t.cls).root (pre k t ++ t.leaves ++ post k t) ∧
      (∀ x ∈ t.leaves, (T t.cls).level x ≤ cfg.maxlevel) ∧
      (pre k t ≠ [] → k = 0 ∧ 0 < cfg.mpirank) ∧
      (post k t ≠ [] → k + 1 = trees.length ∧ cfg.mpirank + 1 < cfg.mpisize)) :
    ∃ trees' s', adapt S maxChildren cfg cb trees s0 = some (trees', false, s') ∧
      trees'.map (fun t => (t.gtree, t.cls)) = trees.map (fun t => (t.gtree, t.cls)) ∧
      ∀ (k : Nat) (t : LocalTree T), trees[k]? = some t → ∃ new : List (T t.cls).E, trees'[k]? = some ⟨t.gtree, t.cls, new⟩ ∧
        (T t.cls).Tiles (T t.cls).root (pre k t ++ new ++ post k t) ∧ ∀ x ∈ new, (T t.cls).level x ≤ cfg.maxlevel := by
  have key : ∀ (rest : List (LocalTree T)) (k : Nat) (s0 : σ), (∀ j, rest[j]? = trees[k + j]?) →
      ∃ trees' s', adaptTrees S maxChildren { cfg with numTrees := trees.length } cb rest k false s0 =
          some (trees', false, s') ∧ trees'.map (fun t => (t.gtree, t.cls)) = rest.map (fun t => (t.gtree, t.cls)) ∧
        ∀ (j : Nat) (t : LocalTree T), rest[j]? = some t → ∃ new : List (T t.cls).E, trees'[j]? = some ⟨t.gtree, t.cls, new⟩ ∧
          (T t.cls).Tiles (T t.cls).root (pre (k + j) t ++ new ++ post (k + j) t) ∧
          ∀ x ∈ new, (T t.cls).level x ≤ cfg.maxlevel := by
    intro rest
    induction rest with
    | nil => intro k s0 _; exact ⟨[], s0, rfl, rfl, by simp⟩
    | cons t ts ih =>
      intro k s0 hr
      have hk : trees[k]? = some t := by
        have := hr 0
        simpa using this.symm
      obtain ⟨h1, h2, h3, h4⟩ := h k t hk
      have hstep : ∃ new s', adaptTree (S t.cls) { cfg with numTrees := trees.length } (cb t.cls) k (maxChildren t.cls)
            t.leaves false s0 = some (new, false, s') ∧
          (T t.cls).Tiles (T t.cls).root (pre k t ++ new ++ post k t) ∧ ∀ x ∈ new, (T t.cls).level x ≤ cfg.maxlevel := by
        by_cases hne : t.leaves = []
        · refine ⟨[], s0, ?_, by rw [hne] at h1; exact h1, by simp⟩
          rw [adaptTree, hne, if_neg (by simp)]
        · by_cases hcr : cfg.recursive = true
          · exact C18_recursive_partial (cfg := { cfg with numTrees := trees.length }) (hS t.cls) (hcb t.cls).1 (hcb t.cls).2 (hrec hcr t.cls) h1 ⟨h3, h4⟩ h2 hne hinc _ s0
          · exact C18_adapt_tiling (cfg := { cfg with numTrees := trees.length }) (hS t.cls) (hcb t.cls).1 (hcb t.cls).2 h1 ⟨h3, h4⟩ h2 hne hinc (by simpa using hcr) _ s0
      obtain ⟨new, s', e1, e2, e3⟩ := hstep
      obtain ⟨trees', s'', f1, f2, f3⟩ := ih (k + 1) s' (fun j => by
        have := hr (j + 1)
        rw [List.getElem?_cons_succ] at this
        rw [this]; congr 1; omega)
      refine ⟨⟨t.gtree, t.cls, new⟩ :: trees', s'', ?_, by simp [f2], ?_⟩
      · rw [adaptTrees, e1]
        simp only [Option.bind_eq_bind, Option.bind_some]
        rw [f1]; rfl
      · intro j u hu
        cases j with
        | zero =>
          simp only [List.getElem?_cons_zero, Option.some.injEq] at hu
          subst hu
          exact ⟨new, rfl, e2, e3⟩
        | succ j =>
          obtain ⟨n, g1, g2, g3⟩ := f3 j u (by simpa using hu)
          refine ⟨n, by simpa using g1, ?_, g3⟩
          rw [show k + (j + 1) = k + 1 + j by omega]
          exact g2
  obtain ⟨trees', s', h1, h2, h3⟩ := key trees 0 s0 (by simp)
  refine ⟨trees', s', ?_, h2, fun k t hk => ?_⟩
  · rw [adapt, h1, hinc]; rfl
  · obtain ⟨n, g1, g2, g3⟩ := h3 k t hk
    rw [Nat.zero_add] at g2
    exact ⟨n, g1, g2, g3⟩

end Forest

/-! ### A lost leaf -/

section Lost
open T8.Standalone

theorem whileO_step {α : Type} {cond : α → Option Bool} {body : α → Option α} {s s' : α} (h : cond s = some true)
    (h' : body s = some s') : whileO cond body s = whileO cond body s' := by
  rw [whileO, h]; simp [h']

theorem whileO_stop {α : Type} {cond : α → Option Bool} {body : α → Option α} {s : α} (h : cond s = some false) :
    whileO cond body s = some s := by
  rw [whileO, h]; simp

/-- Recursive refinement with maximum level 1 of a root with two children, the first of which also gets the answer
"refine". -/
theorem loses_leaf {T : RTree} {S : Scheme T} {cfg : Cfg} {cb : Callback Unit T.E} {mc : Nat} (hm : cfg.maxlevel = 1)
    (hr : cfg.recursive = true) (hn : T.nc T.root = 2) (l0 : T.level T.root = 0) (l1 : T.level (T.child T.root 0) = 1)
    (hsib : S.numSiblings T.root = 1) (href : S.isRefinable T.root = true)
    (hfam : familySize S cfg 0 [T.root] 0 1 = some 0) (a0 : cb () 0 0 false [T.root] = (1, ()))
    (a1 : cb () 0 0 false [T.child T.root 0] = (1, ())) (a2 : cb () 0 0 false [T.child T.root 1] = (0, ())) :
    adaptTree S cfg cb 0 mc [T.root] false () = some ([T.child T.root 1], false, ()) := by
  have hrec : refineRecursive S cfg cb 0 0 ⟨children T.root, [], 0, false, ()⟩ =
      some ⟨[], [T.child T.root 1], 1, false, ()⟩ := by
    rw [refineRecursive, show children T.root = [T.child T.root 0, T.child T.root 1] by
      rw [children, hn]; rfl]
    rw [whileO_step (s' := ⟨[T.child T.root 1], [], 0, false, ()⟩) (by simp)]
    · rw [whileO_step (s' := ⟨[], [T.child T.root 1], 1, false, ()⟩) (by simp)]
      · exact whileO_stop (by simp)
      · simp [refineBody, a2]
    · simp [refineBody, a1, l1, hm]
  have hbody : elementBody S cfg cb 0 [T.root] ⟨0, 0, 0, mc, [], false, ()⟩ =
      some ⟨1, 1, 1, 2, [T.child T.root 1], false, ()⟩ := by
    simp [elementBody, hsib, hfam, a0, l0, hm, href, applyAnswer, hr, hrec, hn]
  rw [adaptTree, if_pos (by simp), whileO_step (by simp) hbody, whileO_stop (by simp)]
  simp

/-- Answer "refine" exactly for the root line and for its first child. -/
def greedy : Callback Unit (Elem 1) := fun _ _ _ _ g =>
  (if g = [Standalone.root 1] ∨ g = [Standalone.child 30 (Standalone.root 1) 0] then 1 else 0, ())

/-- Recursive adaptation with maximum level 1 on one process. -/
def greedyCfg : Cfg := ⟨1, true, false, 0, 1, 1⟩

/-- C18 fails for recursive adaptation: the callback is legal and removes nothing, the old leaf (the root line) is a tiling, but
the new tree consists of the second child only. The first child got the answer "refine" on the maximum level and was
dropped (t8_forest_adapt.cxx:341-358). -/
theorem C18_recursive_loses_leaf :
    Legal greedy ∧ NoRemove greedy ∧ (Cls.tree .line).Tiles (Cls.tree .line).root [(Cls.tree .line).root] ∧
    adaptTree (Cls.scheme .line) greedyCfg greedy 0 2 [(Cls.tree .line).root] false () =
      some ([(Cls.tree .line).child (Cls.tree .line).root 1], false, ()) ∧
    ¬ (Cls.tree .line).Tiles (Cls.tree .line).root [(Cls.tree .line).child (Cls.tree .line).root 1] := by
  have hans : ∀ s lt le b g, (greedy s lt le b g).1 = 1 ∨ (greedy s lt le b g).1 = 0 := by
    intro s lt le b g
    unfold greedy
    dsimp only
    split <;> simp
  refine ⟨fun s lt le b g => ?_, fun s lt le b g => ?_, .leaf _,
    loses_leaf rfl rfl rfl rfl rfl rfl rfl rfl rfl rfl rfl, ?_⟩
  · rcases hans s lt le b g with h | h <;> simp [h]
  · rcases hans s lt le b g with h | h <;> simp [h]
  · intro h
    have := (tiles_root_iff.1 h).2
    rw [weight, List.map_singleton, List.sum_singleton] at this
    have h30 : 0 < 1 → 30 < 32 := by decide
    have h1 := count_eq_pow (M := 30) h30 (Standalone.child 30 (Standalone.root 1) 1) 30
    have h2 := count_eq_pow (M := 30) h30 (Standalone.root 1) 30
    have h3 : (treeOf 1 30 h30).count (Standalone.child 30 (Standalone.root 1) 1) 30 =
      (treeOf 1 30 h30).count (Standalone.root 1) 30 := this
    rw [h1, h2] at h3
    exact absurd h3 (by decide +kernel)

end Lost

/-! ### The hypotheses can be met -/

section Examples
open T8.Standalone

/-- A callback that coarsens every family, refines leaves with an even index and keeps the others; it counts its calls. -/
def busy : Callback Nat (Elem 3) := fun s _ i b _ => (if b then -1 else if i % 2 = 0 then 1 else 0, s + 1)

theorem busy_legal : Legal busy ∧ NoRemove busy := by
  constructor
  · intro s lt le b g
    unfold busy
    dsimp only
    split
    · simp_all
    · split <;> simp
  · intro s lt le b g
    unfold busy
    dsimp only
    split
    · simp
    · split <;> simp

/-- `C18_forest` (and `C17_adapt_trees`) apply to a forest of two hexahedral trees, the first of uniform level 1 and the second
of level 2, on one process. -/
example : ∃ trees' s', adapt (T := Cls.tree) Cls.scheme (fun _ => 8) ⟨21, false, false, 0, 1, 2⟩
      (fun c => match c with | .hex => busy | _ => fun s _ _ _ _ => (0, s))
      [⟨0, .hex, (Cls.tree .hex).uniform (Cls.tree .hex).root 1⟩, ⟨1, .hex, (Cls.tree .hex).uniform (Cls.tree .hex).root 2⟩] (0 : Nat) =
    some (trees', false, s') := by
  have hlev : ∀ x, (Cls.tree .hex).Valid x → (Cls.tree .hex).level x ≤ 21 := fun x hx => (Cls.tree .hex).level_le x hx
  have key := C18_forest (T := Cls.tree) (S := Cls.scheme) Cls.scheme_lawful (cfg := ⟨21, false, false, 0, 1, 2⟩)
    (cb := fun c => match c with | .hex => busy | _ => fun s _ _ _ _ => (0, s)) (fun _ => 8) (fun c => by
      cases c with
      | hex => exact busy_legal
      | _ => exact ⟨fun _ _ _ _ _ => by simp, fun _ _ _ _ _ => by simp⟩) rfl (by simp)
    [⟨0, .hex, (Cls.tree .hex).uniform (Cls.tree .hex).root 1⟩, ⟨1, .hex, (Cls.tree .hex).uniform (Cls.tree .hex).root 2⟩] 0
    (fun _ _ => []) (fun _ _ => []) (fun k t ht => by
      have hk : ∃ n, n ≤ 2 ∧ ∃ g, t = ⟨g, .hex, (Cls.tree .hex).uniform (Cls.tree .hex).root n⟩ := by
        rcases k with _ | _ | k
        · exact ⟨1, by omega, 0, (Option.some.inj ht).symm⟩
        · exact ⟨2, by omega, 1, (Option.some.inj ht).symm⟩
        · simp at ht
      obtain ⟨n, hn, g, rfl⟩ := hk
      have hv := (Cls.tree .hex).valid_root
      have hroot : (Cls.tree .hex).level (Cls.tree .hex).root = 0 := rfl
      have htile := Tiles.uniform (T := Cls.tree .hex) hv (n := n) (by rw [hroot]; show 0 + n ≤ 21; omega)
      refine ⟨by simpa using htile, fun x hx => hlev x ((htile.desc hv x hx).valid hv), by simp, by simp⟩)
  obtain ⟨t, s, h, _⟩ := key
  exact ⟨t, s, h⟩

/-- Distributed tree: the first process has the children 0 - 2 of a hexahedron, the second one the other five. Family
coarsening is not possible on either, and `C18_all_processes` applies. -/
example : ∃ new : List (List (Elem 3)), new.length = 2 ∧ (Cls.tree .hex).Tiles (Cls.tree .hex).root new.flatten := by
  let ch := (Cls.tree .hex).uniform (Cls.tree .hex).root 1
  have hv := (Cls.tree .hex).valid_root
  have htile : (Cls.tree .hex).Tiles (Cls.tree .hex).root ch := Tiles.uniform (T := Cls.tree .hex) hv (n := 1) (by decide)
  have hlev : ∀ x ∈ ch, (Cls.tree .hex).level x ≤ 21 := fun x hx =>
    (Cls.tree .hex).level_le x ((htile.desc hv x hx).valid hv)
  let parts : List (Part Nat (Cls.tree .hex)) :=
    [⟨⟨21, false, false, 0, 2, 1⟩, busy, 0, 8, ch.take 3, 0⟩, ⟨⟨21, false, false, 1, 2, 1⟩, busy, 0, 8, ch.drop 3, 0⟩]
  obtain ⟨new, h1, _, h3⟩ := C18_all_processes (Cls.scheme_lawful .hex) parts (by
      intro q hq
      simp only [parts, List.mem_cons, List.not_mem_nil, or_false] at hq
      rcases hq with rfl | rfl
      · exact ⟨busy_legal.1, busy_legal.2, rfl, by simp, fun x hx => hlev x (List.mem_of_mem_take hx)⟩
      · exact ⟨busy_legal.1, busy_legal.2, rfl, by simp, fun x hx => hlev x (List.mem_of_mem_drop hx)⟩)
    (by
      intro a q b h
      rcases a with _ | ⟨a, _ | ⟨a', as⟩⟩
      · simp only [parts, List.nil_append, List.cons.injEq] at h
        obtain ⟨rfl, rfl⟩ := h
        exact ⟨by simp, fun _ => by simp⟩
      · simp only [parts, List.cons_append, List.nil_append, List.cons.injEq] at h
        obtain ⟨rfl, rfl, rfl⟩ := h
        exact ⟨fun _ => by simp, by simp⟩
      · simp [parts] at h)
    (by simpa [parts, List.take_append_drop] using htile)
  exact ⟨new, h1, h3⟩

/-- `C19_refine` with a callback that always answers "refine" in a tree of 21 levels: everything is lost, but it
terminates. -/
example : ∃ r, refineRecursive (Cls.scheme .hex) ⟨21, true, false, 0, 1, 1⟩ (fun s _ _ _ _ => (1, s)) 0 0
    ⟨children (T := Cls.tree .hex) (Cls.tree .hex).root, [], 0, false, ()⟩ = some r := by
  obtain ⟨new, rm, s, h, _⟩ := C19_refine (Cls.scheme_lawful .hex) (cfg := ⟨21, true, false, 0, 1, 1⟩)
    (cb := fun s _ _ _ _ => (1, s)) (fun _ _ _ _ _ => by simp) 0 0 [] (Cls.tree .hex).valid_root (by decide) (by decide)
    false ()
  exact ⟨_, h⟩

/-- `C20_incomplete_family` and `C20_accepts` for a tree with the children 1, 2, 5 of a hexahedron: the three are
accepted. -/
example : isIncompleteFamily (Cls.scheme .hex) ⟨21, false, true, 0, 1, 1⟩ 0
    [(Cls.tree .hex).child (Cls.tree .hex).root 1, (Cls.tree .hex).child (Cls.tree .hex).root 2,
      (Cls.tree .hex).child (Cls.tree .hex).root 5] 0 3 = some 3 := by
  have hv := (Cls.tree .hex).valid_root
  have hl : (Cls.tree .hex).level (Cls.tree .hex).root < (Cls.tree .hex).maxLevel := by decide
  have hsub : [(Cls.tree .hex).child (Cls.tree .hex).root 1, (Cls.tree .hex).child (Cls.tree .hex).root 2,
      (Cls.tree .hex).child (Cls.tree .hex).root 5].Sublist ((Cls.tree .hex).uniform (Cls.tree .hex).root 1) := by
    have e : (Cls.tree .hex).uniform (Cls.tree .hex).root 1 = (List.range 8).map ((Cls.tree .hex).child (Cls.tree .hex).root) := rfl
    rw [e]
    exact (show [1, 2, 5].Sublist (List.range 8) by decide).map ((Cls.tree .hex).child (Cls.tree .hex).root)
  have ho := ((Tiles.uniform (T := Cls.tree .hex) hv (n := 1) (by decide)).ordered hv).sublist hsub
  have key := C20_accepts (S := Cls.scheme .hex) (Cls.scheme_lawful .hex) (cfg := ⟨21, false, true, 0, 1, 1⟩) (lt := 0) (pre := []) (post := [])
    (leaves := [(Cls.tree .hex).child (Cls.tree .hex).root 1, (Cls.tree .hex).child (Cls.tree .hex).root 2,
      (Cls.tree .hex).child (Cls.tree .hex).root 5]) (by simpa using ho) ⟨by simp, by simp⟩ (i := 0) (n := 3)
    (p := (Cls.tree .hex).root) rfl
    ⟨by simp, by simp, hv, hl, by
      intro x hx
      simp only [List.drop_zero, List.mem_cons, List.not_mem_nil, or_false, List.take_succ_cons, List.take_zero] at hx
      rcases hx with rfl | rfl | rfl <;>
        exact ⟨(Cls.tree .hex).parent_child _ _ hv hl (by decide), (Cls.tree .hex).level_child _ _ hv hl (by decide)⟩,
      by simp, by simp⟩
    (by simp) (by simp)
  exact key

/-- `C19_coarsen` on the eight children of the root hexahedron. -/
example (cb : Callback Nat (Elem 3)) : ∃ tel' s', coarsenRecursive (Cls.scheme .hex) ⟨21, true, false, 0, 1, 1⟩ cb 0 7
    ((Cls.tree .hex).uniform (Cls.tree .hex).root 1) 0 8 (0 : Nat) = some (tel', tel'.length, s') ∧
    (Cls.tree .hex).Tiles (Cls.tree .hex).root tel' := by
  have hv := (Cls.tree .hex).valid_root
  have ht := Tiles.uniform (T := Cls.tree .hex) hv (n := 1) (by decide)
  obtain ⟨tel', s', h1, _, _, h4⟩ := C19_coarsen (Cls.scheme_lawful .hex) (cfg := ⟨21, true, false, 0, 1, 1⟩) cb 0 7
    (A := []) (B := []) (by simpa using ht.ordered hv) (by simp) (e := (Cls.tree .hex).child (Cls.tree .hex).root 7) rfl
    (by decide) 0 (0 : Nat)
  exact ⟨tel', s', h1, by simpa using h4 rfl (by simpa using ht)⟩

/-- `C20_adapt_no_overlap` and `C17_adapt_tree_incomplete` with the children 1, 2, 5 and a callback that removes leaves, for a
process that is not alone. -/
example (s0 : Nat) : ∃ out rm s', adaptTree (Cls.scheme .hex) ⟨21, false, true, 1, 3, 2⟩
    (fun s _ i b _ => (if b then -1 else if i = 1 then -2 else 0, s + 1)) 1 8
    [(Cls.tree .hex).child (Cls.tree .hex).root 1, (Cls.tree .hex).child (Cls.tree .hex).root 2,
      (Cls.tree .hex).child (Cls.tree .hex).root 5] false s0 = if out = [] then none else some (out, rm, s') := by
  have hv := (Cls.tree .hex).valid_root
  have hsub : [(Cls.tree .hex).child (Cls.tree .hex).root 1, (Cls.tree .hex).child (Cls.tree .hex).root 2,
      (Cls.tree .hex).child (Cls.tree .hex).root 5].Sublist ((Cls.tree .hex).uniform (Cls.tree .hex).root 1) := by
    have e : (Cls.tree .hex).uniform (Cls.tree .hex).root 1 = (List.range 8).map ((Cls.tree .hex).child (Cls.tree .hex).root) := rfl
    rw [e]
    exact (show [1, 2, 5].Sublist (List.range 8) by decide).map ((Cls.tree .hex).child (Cls.tree .hex).root)
  have ho := ((Tiles.uniform (T := Cls.tree .hex) hv (n := 1) (by decide)).ordered hv).sublist hsub
  obtain ⟨out, rm, s', _, h⟩ := C17_adapt_tree_incomplete (S := Cls.scheme .hex) (Cls.scheme_lawful .hex)
    (cfg := ⟨21, false, true, 1, 3, 2⟩) (lt := 1) (pre := []) (post := [])
    (cb := fun s _ i b _ => (if b then -1 else if i = 1 then -2 else 0, s + 1))
    (fun s lt i b g => by
      cases b
      · by_cases h : i = 1 <;> simp [h]
      · simp) (by simpa using ho) ⟨by simp, by simp⟩
    (fun x hx => (Cls.tree .hex).level_le x (ho.1 x hx)) (by simp) rfl rfl 8 false s0
  exact ⟨out, _, s', h⟩

end Examples
end T8.Adapt
