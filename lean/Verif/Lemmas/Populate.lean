/-
Lemmas about the creation of uniform forests.
-/
import Verif.Model.Populate
import Verif.Spec.Uniform
import Verif.Lemmas.UniformBounds
import Verif.Lemmas.Element

namespace T8.Populate
open T8.Uniform T8.RTree

/-- The elements number `a, …, b - 1` of a list. -/
def slice {α : Type} (l : List α) (a b : Nat) : List α := (l.take b).drop a

theorem slice_append {α : Type} (l m : List α) (a b : Nat) :
    slice (l ++ m) a b = slice l a b ++ slice m (a - l.length) (b - l.length) := by
  unfold slice
  rw [List.take_append, List.drop_append, List.length_take]
  congr 1
  rcases Nat.le_total l.length b with h | h
  · rw [Nat.min_eq_right h]
  · rw [Nat.min_eq_left h, Nat.sub_eq_zero_of_le h]; simp

theorem slice_self {α : Type} (l : List α) {a b : Nat} (ha : a = 0) (hb : l.length ≤ b) : slice l a b = l := by
  simp [slice, ha, List.take_of_length_le hb]

theorem slice_nil_of_ge {α : Type} (l : List α) {a b : Nat} (h : b ≤ a ∨ l.length ≤ a) : slice l a b = [] := by
  simp only [slice, List.drop_eq_nil_iff, List.length_take]; omega

theorem slice_join {α : Type} (l : List α) {a b c : Nat} (h1 : a ≤ b) (h2 : b ≤ c) :
    slice l a b ++ slice l b c = slice l a c := by
  unfold slice
  have : l.take c = l.take b ++ (l.take c).drop b := by
    conv_lhs => rw [← List.take_append_drop b (l.take c)]
    rw [List.take_take, Nat.min_eq_left h2]
  conv_rhs => rw [this, List.drop_append]
  rw [List.length_take]
  rcases Nat.le_total b l.length with h | h
  · rw [Nat.min_eq_left h, Nat.sub_eq_zero_of_le h1, List.drop_zero]
  · rw [Nat.min_eq_right h]
    have : (l.take c).drop b = [] := by
      rw [List.drop_eq_nil_iff, List.length_take]; omega
    rw [this]; simp

theorem slice_one {α : Type} {l : List α} {a : Nat} {x : α} (h : l[a]? = some x) : slice l a (a + 1) = [x] := by
  obtain ⟨h1, h2⟩ := List.getElem?_eq_some_iff.1 h
  rw [slice, List.take_succ_eq_append_getElem h1, List.drop_append, List.length_take, h2]
  simp [Nat.min_eq_left h1.le]

variable {C : Type} {T : C → RTree}

/-- The leaves of a local tree. -/
def LocalTree.toLeaves (t : LocalTree T) : List (Spec.Leaf T) := t.leaves.map (fun e => ⟨t.gtree, t.cls, e⟩)

/-- The leaves of tree `k` of class `c`. -/
abbrev treeLeaves (T : C → RTree) (L k : Nat) (c : C) : List (Spec.Leaf T) :=
  ((T c).uniform (T c).root L).map (fun e => ⟨k, c, e⟩)

theorem slice_map {α β : Type} (f : α → β) (l : List α) (a b : Nat) :
    slice (l.map f) a b = (slice l a b).map f := by
  simp [slice]

theorem treeElements_spec {T : RTree} (S : Scheme T) (hS : S.Lawful) {L : Nat} (hL : L ≤ T.maxLevel) {a b : Nat}
    (hab : a < b) (hb : b ≤ (T.uniform T.root L).length) (h31 : (b : Int) - a < 2 ^ 31) :
    treeElements S L a b = some (slice (T.uniform T.root L) a b) := by
  have hmem : ∀ i x, (T.uniform T.root L)[i]? = some x → T.Valid x ∧ T.level x = L := fun i x h =>
    (mem_root_uniform hL).1 (List.mem_of_getElem? h)
  have hsc : ∀ i x y, (T.uniform T.root L)[i]? = some x → (T.uniform T.root L)[i + 1]? = some y →
      S.successor x = some y := by
    intro i x y hx hy
    obtain ⟨v, l⟩ := hmem i x hx
    exact hS.successor x y i v (by rw [l]; exact hx) (by rw [l]; exact hy)
  have hset : S.setLinearId L a = (T.uniform T.root L)[a]? := hS.setLinearId L a hL (by omega)
  generalize T.uniform T.root L = U at *
  have hsucc : ∀ n a x, U[a]? = some x → a + n < U.length →
      successors S L n x = some (slice U (a + 1) (a + 1 + n)) := by
    intro n
    induction n with
    | zero => intro a x h _; simp [successors, slice_nil_of_ge]
    | succ n ih =>
      intro a x h h2
      obtain ⟨y, hy⟩ : ∃ y, U[a + 1]? = some y := ⟨_, List.getElem?_eq_getElem (by omega)⟩
      rw [successors, assertO_true (hmem a x h).2, hsc a x y h hy]
      simp only [Option.bind_eq_bind, Option.bind_some]
      rw [ih (a + 1) y hy (by omega)]
      simp only [Option.bind_some, Option.some.injEq]
      rw [show a + 1 + (n + 1) = a + 1 + 1 + n by omega,
        ← slice_join U (a := a + 1) (b := a + 1 + 1) (by omega) (by omega), slice_one hy]
      rfl
  obtain ⟨x, hx⟩ : ∃ x, U[a]? = some x := ⟨_, List.getElem?_eq_getElem (by omega)⟩
  rw [treeElements, assertO_true ⟨by omega, h31⟩]
  simp only [Option.bind_eq_bind, Option.bind_some]
  rw [Int.toNat_natCast, hset, hx]
  simp only [Option.bind_some]
  rw [show ((b : Int) - (a + 1)).toNat = b - (a + 1) by omega, hsucc _ a x hx (by omega)]
  simp only [Option.bind_some, Option.some.injEq]
  rw [show a + 1 + (b - (a + 1)) = b by omega, ← slice_join U (a := a) (b := a + 1) (by omega) (by omega),
    slice_one hx]
  rfl

/-- A slice of the uniform forest is made of slices of its trees. -/
theorem slice_uniformForest (L : Nat) : ∀ (classes : List C) (k a b : Nat),
    slice (Spec.uniformForest T L k classes) a b =
      (List.range classes.length).flatMap (fun t =>
        match classes[t]? with
        | some c => slice (treeLeaves T L (k + t) c)
            (a - ((classes.take t).map (fun c => ((T c).uniform (T c).root L).length)).sum)
            (b - ((classes.take t).map (fun c => ((T c).uniform (T c).root L).length)).sum)
        | none => [])
  | [], k, a, b => by simp [Spec.uniformForest, slice]
  | c :: cs, k, a, b => by
    rw [Spec.uniformForest, slice_append, slice_uniformForest L cs]
    rw [List.length_cons, List.range_succ_eq_map, List.flatMap_cons]
    congr 1
    rw [List.flatMap_map]
    congr 1
    funext t
    simp only [Nat.succ_eq_add_one, List.getElem?_cons_succ, List.take_succ_cons, List.map_cons, List.sum_cons,
      List.length_map]
    cases cs[t]? with
    | none => rfl
    | some c' => simp only [Nat.sub_sub, show k + 1 + t = k + (t + 1) by omega]

theorem mapM_exists {α β : Type} {f : α → Option β} {R : α → β → Prop} :
    ∀ {l : List α}, (∀ x ∈ l, ∃ y, f x = some y ∧ R x y) → ∃ ys, l.mapM f = some ys ∧ List.Forall₂ R l ys
  | [], _ => ⟨[], rfl, List.Forall₂.nil⟩
  | x :: l, h => by
    obtain ⟨y, h1, h2⟩ := h x (by simp)
    obtain ⟨ys, h3, h4⟩ := mapM_exists (l := l) (fun z hz => h z (by simp [hz]))
    exact ⟨y :: ys, by rw [List.mapM_cons, h1, h3]; rfl, List.Forall₂.cons h2 h4⟩

theorem flatMap_forall₂ {α β γ : Type} {g : β → List γ} {F : α → List γ} {l : List α} {ys : List β}
    (h : List.Forall₂ (fun x y => g y = F x) l ys) : ys.flatMap g = l.flatMap F := by
  induction h with
  | nil => rfl
  | cons h _ ih => rw [List.flatMap_cons, List.flatMap_cons, h, ih]

theorem flatMap_nil_of {α β : Type} {l : List α} {f : α → List β} (h : ∀ x ∈ l, f x = []) : l.flatMap f = [] := by
  rw [List.flatMap_eq_nil_iff]; exact h

/-- The number of leaves of the first `t` trees. -/
def before (T : C → RTree) (L : Nat) (classes : List C) (t : Nat) : Nat :=
  ((classes.take t).map (fun c => ((T c).uniform (T c).root L).length)).sum

theorem before_succ {L : Nat} {classes : List C} {t : Nat} {c : C} (h : classes[t]? = some c) :
    before T L classes (t + 1) = before T L classes t + ((T c).uniform (T c).root L).length := by
  obtain ⟨h1, h2⟩ := List.getElem?_eq_some_iff.1 h
  rw [before, List.take_succ_eq_append_getElem h1, List.map_append, List.sum_append, h2]
  simp [before]

theorem before_mono {L : Nat} {classes : List C} {t u : Nat} (h : t ≤ u) :
    before T L classes t ≤ before T L classes u := by
  induction h with
  | refl => exact le_refl _
  | @step m _ ih =>
    cases hc : classes[m]? with
    | none =>
      have : classes.length ≤ m := by simpa using hc
      have e : before T L classes (m + 1) = before T L classes m := by
        rw [before, before, List.take_of_length_le (by omega), List.take_of_length_le this]
      rw [e]; exact ih
    | some c => rw [before_succ hc]; omega

theorem before_cast {L : Nat} {classes : List C} {t : Nat} :
    ((classes.map (fun c => (((T c).uniform (T c).root L).length : Int))).take t).sum = before T L classes t := by
  rw [before, ← List.map_take]
  generalize classes.take t = l
  induction l with
  | nil => simp
  | cons a l ih => simp [ih]

/-- `t8_forest_populate` creates the elements of its range, tree by tree. -/
theorem populate_spec (S : ∀ c, Scheme (T c)) (hS : ∀ c, (S c).Lawful) {classes : List C} {L : Nat}
    (hL : ∀ c ∈ classes, L ≤ (T c).maxLevel) {f l : Nat} (hfl : f < l) (h31 : (l : Int) - f < 2 ^ 31) {b : Bounds}
    (hcnt : ∀ c ∈ classes, ((T c).uniform (T c).root L).length < 2 ^ 63)
    (hb : Spec.Cuts (classes.map (fun c => (((T c).uniform (T c).root L).length : Int))) f l
      b.firstLocalTree b.childInTreeBegin b.lastLocalTree b.childInTreeEnd) :
    ∃ ts, populate S classes L b = some ts ∧
      ts.flatMap LocalTree.toLeaves = slice (Spec.uniformForest T L 0 classes) f l := by
  obtain ⟨⟨i, n, i1, i2, i3, i4, i5⟩, ⟨j, m, j1, j2, j3, j4, j5⟩⟩ := hb
  rw [List.getElem?_map] at i1 j1
  obtain ⟨ci, hci, rfl⟩ := Option.map_eq_some_iff.1 i1
  obtain ⟨cj, hcj, rfl⟩ := Option.map_eq_some_iff.1 j1
  rw [before_cast] at i3 j3
  have hij : i ≤ j := by
    by_contra hlt
    have h1 := before_mono (T := T) (L := L) (classes := classes) (t := j + 1) (u := i) (by omega)
    rw [before_succ hcj] at h1
    omega
  obtain ⟨hi, _⟩ := List.getElem?_eq_some_iff.1 hci
  obtain ⟨hj, _⟩ := List.getElem?_eq_some_iff.1 hcj
  have hne : ¬ (b.firstLocalTree > b.lastLocalTree ∨
      (b.firstLocalTree = b.lastLocalTree ∧ b.childInTreeBegin ≥ b.childInTreeEnd)) := by
    rw [i2, j2]
    rintro (h | ⟨h, h'⟩)
    · omega
    · have : i = j := by omega
      subst this; omega
  rw [populate, if_neg hne, if_pos (by omega), i2, j2, Int.toNat_natCast]
  have hnum : ((j : Int) - i + 1).toNat = j - i + 1 := by omega
  rw [hnum]
  -- one tree
  have htree : ∀ t ∈ List.range' i (j - i + 1), ∃ y, populateTree S classes L b t = some y ∧
      y.toLeaves = (match classes[t]? with
        | some c => slice (treeLeaves T L (0 + t) c) (f - before T L classes t) (l - before T L classes t)
        | none => []) := by
    intro t ht
    rw [List.mem_range'_1] at ht
    obtain ⟨c, hc⟩ : ∃ c, classes[t]? = some c := ⟨_, List.getElem?_eq_getElem (by omega)⟩
    have hmem : c ∈ classes := List.mem_of_getElem? hc
    have hcount : (S c).countLeavesFromRoot L = ((T c).uniform (T c).root L).length := by
      rw [(hS c).countLeavesFromRoot L (hL c hmem) (by rw [count_root]; exact hcnt c hmem), count_root]
    have hsucc := before_succ (T := T) (L := L) hc
    have hstart : (if (t : Int) = b.firstLocalTree then b.childInTreeBegin else 0) =
        ((f - before T L classes t : Nat) : Int) := by
      split
      · rename_i h
        have : t = i := by omega
        subst this
        omega
      · rename_i h
        have h1 := before_mono (T := T) (L := L) (classes := classes) (t := i + 1) (u := t) (by omega)
        rw [before_succ hci] at h1
        omega
    have hUpos : 0 < ((T c).uniform (T c).root L).length := by
      have := count_pos (T := T c) (T c).valid_root (L := L) (by rw [(T c).level_root]; omega) (hL c hmem)
      rwa [count_root] at this
    have hend : (if (t : Int) = b.lastLocalTree then b.childInTreeEnd else (S c).countLeavesFromRoot L) =
        ((min (l - before T L classes t) ((T c).uniform (T c).root L).length : Nat) : Int) := by
      split
      · rename_i h
        have : t = j := by omega
        subst this
        rw [hcj] at hc
        obtain rfl := Option.some.inj hc
        omega
      · rename_i h
        have h1 := before_mono (T := T) (L := L) (classes := classes) (t := t + 1) (u := j) (by omega)
        rw [hcount]
        omega
    have hlo : f - before T L classes t < min (l - before T L classes t) ((T c).uniform (T c).root L).length := by
      have h1 := before_mono (T := T) (L := L) (classes := classes) (t := t) (u := j) (by omega)
      rcases Nat.eq_or_lt_of_le ht.1 with h | h
      · subst h
        rw [hci] at hc
        obtain rfl := Option.some.inj hc
        omega
      · have h2 := before_mono (T := T) (L := L) (classes := classes) (t := i + 1) (u := t) (by omega)
        rw [before_succ hci] at h2
        omega
    refine ⟨⟨t, c, slice ((T c).uniform (T c).root L) (f - before T L classes t)
      (min (l - before T L classes t) ((T c).uniform (T c).root L).length)⟩, ?_, ?_⟩
    · rw [populateTree, hc]
      simp only [Option.bind_eq_bind, Option.bind_some]
      rw [hstart, hend, treeElements_spec (S c) (hS c) (hL c hmem) hlo (by omega) (by omega)]
      rfl
    · rw [hc]
      simp only [LocalTree.toLeaves, treeLeaves, slice_map, Nat.zero_add]
      congr 1
      unfold slice
      congr 1
      rcases Nat.le_total (l - before T L classes t) ((T c).uniform (T c).root L).length with h | h
      · rw [Nat.min_eq_left h]
      · rw [Nat.min_eq_right h, List.take_of_length_le h, List.take_length]
  obtain ⟨ys, hys, hR⟩ := mapM_exists htree
  refine ⟨ys, hys, ?_⟩
  rw [flatMap_forall₂ hR, slice_uniformForest]
  have hsplit : List.range classes.length =
      List.range i ++ List.range' i (j - i + 1) ++ List.range' (j + 1) (classes.length - (j + 1)) := by
    have h1 := List.range'_append_1 (s := 0) (m := i) (n := j - i + 1)
    have h2 := List.range'_append_1 (s := 0) (m := j + 1) (n := classes.length - (j + 1))
    rw [Nat.zero_add] at h1 h2
    rw [List.range_eq_range', List.range_eq_range', h1, show i + (j - i + 1) = j + 1 by omega, h2,
      show j + 1 + (classes.length - (j + 1)) = classes.length by omega]
  rw [hsplit, List.flatMap_append, List.flatMap_append, flatMap_nil_of (l := List.range i),
    flatMap_nil_of (l := List.range' (j + 1) _)]
  · rw [List.append_nil]; rfl
  · intro t ht
    rw [List.mem_range'_1] at ht
    cases hc : classes[t]? with
    | none => rfl
    | some c =>
      have h1 := before_mono (T := T) (L := L) (classes := classes) (t := j + 1) (u := t) (by omega)
      rw [before_succ hcj] at h1
      exact slice_nil_of_ge _ (Or.inl (by unfold before at *; omega))
  · intro t ht
    rw [List.mem_range] at ht
    cases hc : classes[t]? with
    | none => rfl
    | some c =>
      have h1 := before_mono (T := T) (L := L) (classes := classes) (t := t + 1) (u := i) (by omega)
      rw [before_succ hc] at h1
      exact slice_nil_of_ge _ (Or.inr (by rw [List.length_map]; unfold before at *; omega))

end T8.Populate
