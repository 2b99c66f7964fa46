/-
Leaf lists without overlap, and tilings characterised by the number of finest descendants.
-/
import Verif.Lemmas.RTree
import Mathlib.Data.List.Flatten
import Mathlib.Data.List.Perm.Basic
import Mathlib.Algebra.BigOperators.Group.List.Basic
import Mathlib.Algebra.Order.BigOperators.Group.List

namespace T8
namespace RTree
variable {T : RTree}

/-- The elements are valid and do not overlap, in curve order. -/
def Ordered (T : RTree) (ls : List T.E) : Prop := (∀ x ∈ ls, T.Valid x) ∧ ls.Pairwise T.Before

/-- The number of finest descendants of all elements. -/
def weight (ls : List T.E) : Nat := (ls.map (fun x => T.count x T.maxLevel)).sum

@[simp] theorem weight_nil : weight ([] : List T.E) = 0 := rfl
@[simp] theorem weight_cons (x : T.E) (ls : List T.E) : weight (x :: ls) = T.count x T.maxLevel + weight ls := by
  simp [weight]
@[simp] theorem weight_append (a b : List T.E) : weight (a ++ b) = weight a + weight b := by
  simp [weight]

theorem Ordered.sublist {a b : List T.E} (h : T.Ordered b) (hs : a.Sublist b) : T.Ordered a :=
  ⟨fun x hx => h.1 x (hs.subset hx), h.2.sublist hs⟩

theorem Ordered.nodup {a : List T.E} (h : T.Ordered a) : a.Nodup := by
  refine h.2.imp ?_
  rintro x y hb rfl
  exact hb.irrefl

theorem Before.not_comparable {x y z : T.E} (h : T.Before x y) : ¬ (T.Desc x z ∧ T.Desc y z) := by
  rintro ⟨h1, h2⟩
  exact (h.desc h1 h2).irrefl

/-- Total weight of non overlapping elements of `e` from a position on. -/
theorem weight_le_aux {e : T.E} (he : T.Valid e) : ∀ {ls : List T.E} {a : Nat}, ls.Pairwise T.Before →
    (∀ x ∈ ls, T.Desc e x) → (∀ x ∈ ls, a ≤ lid x T.maxLevel) → a ≤ lid e T.maxLevel + T.count e T.maxLevel →
    a + weight ls ≤ lid e T.maxLevel + T.count e T.maxLevel := by
  intro ls
  induction ls with
  | nil => intro a _ _ _ h; simpa using h
  | cons x xs ih =>
    intro a hp hd hl _
    rw [List.pairwise_cons] at hp
    have hx := hd x (by simp)
    have vx := hx.valid he
    have hb := hx.lid_bounds he (T.level_le x vx) le_rfl
    have := ih (a := lid x T.maxLevel + T.count x T.maxLevel) hp.2 (fun y hy => hd y (by simp [hy]))
      (fun y hy => (hp.1 y hy).lid_le (T.level_le x vx) (T.level_le y ((hd y (by simp [hy])).valid he)) le_rfl) hb.2
    have := hl x (by simp)
    rw [weight_cons]; omega

theorem weight_le {e : T.E} (he : T.Valid e) {ls : List T.E} (hp : ls.Pairwise T.Before)
    (hd : ∀ x ∈ ls, T.Desc e x) : weight ls ≤ T.count e T.maxLevel := by
  have := weight_le_aux he (a := lid e T.maxLevel) hp hd
    (fun x hx => ((hd x hx).lid_bounds he (T.level_le x ((hd x hx).valid he)) le_rfl).1) (by omega)
  omega

theorem weight_pos {ls : List T.E} (h : ∀ x ∈ ls, T.Valid x) (hne : ls ≠ []) : 0 < weight ls := by
  cases ls with
  | nil => exact absurd rfl hne
  | cons x xs =>
    have := count_pos (h x (by simp)) (T.level_le x (h x (by simp))) le_rfl
    rw [weight_cons]; omega

theorem weight_flatMap {α : Type} (l : List α) (f : α → List T.E) :
    weight (l.flatMap f) = (l.map (fun i => weight (f i))).sum := by
  induction l with
  | nil => rfl
  | cons x xs ih => rw [List.flatMap_cons, weight_append, ih]; rfl

theorem Tiles.weight_eq {e : T.E} (he : T.Valid e) {ls : List T.E} (h : T.Tiles e ls) :
    weight ls = T.count e T.maxLevel := by
  induction h with
  | leaf e => simp
  | node e ls hl h ih =>
    rw [weight_flatMap, count_children he hl le_rfl]
    congr 1
    refine List.map_congr_left fun i hi => ?_
    rw [List.mem_range] at hi
    exact ih i hi (T.valid_child e i he hl hi)

theorem Tiles.ordered {e : T.E} (he : T.Valid e) {ls : List T.E} (h : T.Tiles e ls) : T.Ordered ls :=
  ⟨fun x hx => (h.desc he x hx).valid he, h.pairwise he⟩

theorem sum_map_eq_of_le {α : Type} {f g : α → Nat} : ∀ {l : List α}, (∀ x ∈ l, f x ≤ g x) →
    (l.map f).sum = (l.map g).sum → ∀ x ∈ l, f x = g x := by
  intro l
  induction l with
  | nil => simp
  | cons a l ih =>
    intro h hs x hx
    rw [List.map_cons, List.map_cons, List.sum_cons, List.sum_cons] at hs
    have h1 := h a (by simp)
    have h2 : (l.map f).sum ≤ (l.map g).sum := List.sum_le_sum fun y hy => h y (by simp [hy])
    rcases List.mem_cons.1 hx with rfl | hx
    · omega
    · exact ih (fun y hy => h y (by simp [hy])) (by omega) x hx

/-- Elements that do not overlap and have the weight of `e` tile it. -/
theorem tiles_of_weight : ∀ {n : Nat} {e : T.E} {ls : List T.E}, T.Valid e → T.maxLevel - T.level e = n →
    ls.Pairwise T.Before → (∀ x ∈ ls, T.Desc e x) → weight ls = T.count e T.maxLevel → T.Tiles e ls := by
  classical
  intro n
  induction n with
  | zero =>
    intro e ls he hn hp hd hw
    have hall : ∀ x ∈ ls, x = e := fun x hx =>
      (hd x hx).eq_of_level he (by have := T.level_le x ((hd x hx).valid he); omega)
    cases ls with
    | nil => have := count_pos he (T.level_le e he) le_rfl; simp at hw; omega
    | cons x xs =>
      cases xs with
      | nil => rw [hall x (by simp)]; exact Tiles.leaf e
      | cons y ys =>
        have h1 := hall x (by simp)
        have h2 := hall y (by simp)
        rw [List.pairwise_cons] at hp
        have := hp.1 y (by simp)
        rw [h1, h2] at this
        exact absurd this Before.irrefl
  | succ n ih =>
    intro e ls he hn hp hd hw
    have hl : T.level e < T.maxLevel := by omega
    have hv : ∀ x ∈ ls, T.Valid x := fun x hx => (hd x hx).valid he
    by_cases hmem : e ∈ ls
    · obtain ⟨A, B, rfl⟩ := List.append_of_mem hmem
      rw [weight_append, weight_cons] at hw
      have hA : A = [] := by
        by_contra hne
        have := weight_pos (fun x hx => hv x (by simp [hx])) hne
        omega
      have hB : B = [] := by
        by_contra hne
        have := weight_pos (fun x hx => hv x (by simp [hx])) hne
        omega
      subst hA; subst hB
      exact Tiles.leaf e
    · let f : Nat → List T.E := fun i => ls.filter (fun x => decide (T.Desc (T.child e i) x))
      have hfd : ∀ i x, x ∈ f i → T.Desc (T.child e i) x := by
        intro i x hx
        simpa using (List.mem_filter.1 hx).2
      have hord : ((List.range (T.nc e)).flatMap f).Pairwise T.Before := by
        rw [List.pairwise_flatMap]
        refine ⟨fun i _ => hp.sublist List.filter_sublist, ?_⟩
        refine (List.pairwise_lt_range (n := T.nc e)).imp_of_mem ?_
        intro i j hi hj hij x hx y hy
        rw [List.mem_range] at hi hj
        exact (before_children he hl hij hj).desc (hfd i x hx) (hfd j y hy)
      have heq : ls = (List.range (T.nc e)).flatMap f := by
        have hperm : ls.Perm ((List.range (T.nc e)).flatMap f) := by
          rw [List.perm_ext_iff_of_nodup]
          · intro x
            rw [List.mem_flatMap]
            constructor
            · intro hx
              rcases desc_cases he (hd x hx) with rfl | ⟨_, i, hi, hdi⟩
              · exact absurd hx hmem
              · exact ⟨i, List.mem_range.2 hi, List.mem_filter.2 ⟨hx, by simpa using hdi⟩⟩
            · rintro ⟨i, _, hx⟩
              exact (List.mem_filter.1 hx).1
          · exact hp.imp (by rintro x y hb rfl; exact hb.irrefl)
          · exact hord.imp (by rintro x y hb rfl; exact hb.irrefl)
        exact hperm.eq_of_pairwise (fun a b _ _ h1 h2 => absurd h2 h1.asymm) hp hord
      have hle : ∀ i ∈ List.range (T.nc e), weight (f i) ≤ T.count (T.child e i) T.maxLevel := by
        intro i hi
        rw [List.mem_range] at hi
        exact weight_le (T.valid_child e i he hl hi) (hp.sublist List.filter_sublist) (hfd i)
      have hsum : ((List.range (T.nc e)).map (fun i => weight (f i))).sum =
          ((List.range (T.nc e)).map (fun i => T.count (T.child e i) T.maxLevel)).sum := by
        rw [← weight_flatMap, ← heq, hw, count_children he hl le_rfl]
      have heach := sum_map_eq_of_le hle hsum
      rw [heq]
      refine Tiles.node e f hl fun i hi => ?_
      refine ih (T.valid_child e i he hl hi) ?_ (hp.sublist List.filter_sublist) (hfd i)
        (heach i (List.mem_range.2 hi))
      rw [T.level_child e i he hl hi]; omega

theorem tiles_root_iff {ls : List T.E} :
    T.Tiles T.root ls ↔ T.Ordered ls ∧ weight ls = T.count T.root T.maxLevel :=
  ⟨fun h => ⟨h.ordered T.valid_root, h.weight_eq T.valid_root⟩,
   fun ⟨h1, h2⟩ => tiles_of_weight T.valid_root rfl h1.2 (fun x hx => desc_root (h1.1 x hx)) h2⟩

theorem weight_children {e : T.E} (he : T.Valid e) (hl : T.level e < T.maxLevel) :
    weight ((List.range (T.nc e)).map (T.child e)) = T.count e T.maxLevel := by
  rw [count_children he hl le_rfl, weight, List.map_map]
  rfl

theorem pairwise_children {e : T.E} (he : T.Valid e) (hl : T.level e < T.maxLevel) :
    ((List.range (T.nc e)).map (T.child e)).Pairwise T.Before := by
  rw [List.pairwise_map]
  refine (List.pairwise_lt_range (n := T.nc e)).imp_of_mem ?_
  intro i j _ hj hij
  exact before_children he hl hij (List.mem_range.1 hj)

/-- Replacing a member by non overlapping descendants of it. -/
theorem Ordered.replace_desc {A B g : List T.E} {e : T.E} (h : T.Ordered (A ++ [e] ++ B)) (hg : g.Pairwise T.Before)
    (hd : ∀ x ∈ g, T.Desc e x) : T.Ordered (A ++ g ++ B) := by
  obtain ⟨hv, hp⟩ := h
  have he : T.Valid e := hv e (by simp)
  rw [List.pairwise_append, List.pairwise_append] at hp
  obtain ⟨⟨hA, _, hAe⟩, hB, hAB⟩ := hp
  refine ⟨?_, ?_⟩
  · intro x hx
    simp only [List.mem_append] at hx
    rcases hx with (hx | hx) | hx
    · exact hv x (by simp [hx])
    · exact (hd x hx).valid he
    · exact hv x (by simp [hx])
  · rw [List.pairwise_append, List.pairwise_append]
    refine ⟨⟨hA, hg, ?_⟩, hB, ?_⟩
    · intro a ha b hb
      exact (hAe a ha e (by simp)).desc Desc.refl (hd b hb)
    · intro a ha b hb
      rcases List.mem_append.1 ha with ha | ha
      · exact hAB a (by simp [ha]) b hb
      · exact (hAB e (by simp) b hb).desc (hd a ha) Desc.refl

theorem Ordered.replace_children {A B : List T.E} {e : T.E} (h : T.Ordered (A ++ [e] ++ B))
    (hl : T.level e < T.maxLevel) : T.Ordered (A ++ (List.range (T.nc e)).map (T.child e) ++ B) := by
  have he : T.Valid e := h.1 e (by simp)
  refine h.replace_desc (pairwise_children he hl) ?_
  intro x hx
  obtain ⟨i, hi, rfl⟩ := List.mem_map.1 hx
  exact Desc.child_self hl (List.mem_range.1 hi)

/-- Replacing members by a common ancestor that contains no further member. -/
theorem Ordered.replace_group {A B g : List T.E} {p : T.E} (h : T.Ordered (A ++ g ++ B)) (hp : T.Valid p)
    (hg : g ≠ []) (hd : ∀ x ∈ g, T.Desc p x) (hA : ∀ x ∈ A, ¬ T.Desc p x) (hB : ∀ x ∈ B, ¬ T.Desc p x) :
    T.Ordered (A ++ [p] ++ B) := by
  obtain ⟨hv, hpw⟩ := h
  obtain ⟨y, hy⟩ := List.exists_mem_of_ne_nil g hg
  rw [List.pairwise_append, List.pairwise_append] at hpw
  obtain ⟨⟨pA, _, hAg⟩, pB, hAB⟩ := hpw
  refine ⟨?_, ?_⟩
  · intro x hx
    simp only [List.mem_append, List.mem_singleton] at hx
    rcases hx with (hx | rfl) | hx
    · exact hv x (by simp [hx])
    · exact hp
    · exact hv x (by simp [hx])
  · rw [List.pairwise_append, List.pairwise_append]
    refine ⟨⟨pA, by simp, ?_⟩, pB, ?_⟩
    · intro a ha b hb
      rw [List.mem_singleton] at hb
      subst hb
      have hay := hAg a ha y hy
      rcases position_cases (hv a (by simp [ha])) hp with h1 | h1 | h1 | h1
      · exact absurd ⟨h1.trans (hd y hy), Desc.refl⟩ hay.not_comparable
      · exact absurd h1 (hA a ha)
      · exact h1
      · exact absurd hay (h1.desc (hd y hy) Desc.refl).asymm
    · intro a ha b hb
      rcases List.mem_append.1 ha with ha | ha
      · exact hAB a (by simp [ha]) b hb
      · rw [List.mem_singleton] at ha
        subst ha
        have hyb := hAB y (by simp [hy]) b hb
        rcases position_cases hp (hv b (by simp [hb])) with h1 | h1 | h1 | h1
        · exact absurd h1 (hB b hb)
        · exact absurd ⟨Desc.refl, h1.trans (hd y hy)⟩ hyb.not_comparable
        · exact h1
        · exact absurd hyb (h1.desc Desc.refl (hd y hy)).asymm

/-- An element after the last child of `p` is not in `p`. -/
theorem not_desc_after_last {p x y : T.E} (hp : T.Valid p) (hx : T.Valid x) (h0 : 0 < T.level x) (hpar : T.parent x = p)
    (hid : T.childId x + 1 = T.nc p) (hb : T.Before x y) : ¬ T.Desc p y := by
  intro hd
  have hlev := T.level_parent x hx h0
  have hlt := T.level_le x hx
  rw [hpar] at hlev
  have hc := T.child_parent x hx h0
  rw [hpar] at hc
  rcases desc_cases hp hd with rfl | ⟨hm, i, hi, hdi⟩
  · exact hb.not_desc.2 (by rw [← hc]; exact Desc.child_self (by omega) (by omega))
  · rcases Nat.lt_or_ge i (T.childId x) with h | h
    · have := (before_children hp hm h (by omega)).desc hdi Desc.refl
      rw [hc] at this
      exact this.asymm hb
    · have : i = T.childId x := by omega
      rw [this, hc] at hdi
      exact hb.not_desc.1 hdi

/-- An element before the first child of `p` is not in `p`. -/
theorem not_desc_before_first {p x y : T.E} (hp : T.Valid p) (hx : T.Valid x) (h0 : 0 < T.level x)
    (hpar : T.parent x = p) (hid : T.childId x = 0) (hb : T.Before y x) : ¬ T.Desc p y := by
  intro hd
  have hlev := T.level_parent x hx h0
  have hlt := T.level_le x hx
  rw [hpar] at hlev
  have hc := T.child_parent x hx h0
  rw [hpar, hid] at hc
  rcases desc_cases hp hd with rfl | ⟨hm, i, hi, hdi⟩
  · exact hb.not_desc.1 (by rw [← hc]; exact Desc.child_self (by omega) (T.nc_pos _ hp))
  · rcases Nat.eq_zero_or_pos i with rfl | h
    · rw [hc] at hdi
      exact hb.not_desc.2 hdi
    · have := (before_children hp hm h hi).desc Desc.refl hdi
      rw [hc] at this
      exact this.asymm hb

end RTree
end T8
