/-
Lemmas on refinement of sequences of leaves (`Spec/Balance.lean`).
-/
import Verif.Spec.Balance
import Verif.Lemmas.Tiling

namespace T8.BalanceSpec
open RTree

variable {T : Nat → RTree}

/-! ### Leaves in one tree -/

theorem inTree_append (g : Nat) (a b : List (Leaf T)) : inTree g (a ++ b) = inTree g a ++ inTree g b := List.filterMap_append ..

theorem inTree_cons_same (g : Nat) (e : (T g).E) (b : List (Leaf T)) : inTree g (⟨g, e⟩ :: b) = e :: inTree g b := by
  simp [inTree]

theorem inTree_cons_other {g g' : Nat} (h : g' ≠ g) (e : (T g').E) (b : List (Leaf T)) : inTree g (⟨g', e⟩ :: b) = inTree g b := by
  simp [inTree, h]

theorem inTree_map_same (g : Nat) (l : List (T g).E) : inTree g (l.map (Sigma.mk g)) = l := by
  induction l with
  | nil => rfl
  | cons x l ih => rw [List.map_cons, inTree_cons_same, ih]

theorem inTree_map_other {g g' : Nat} (h : g' ≠ g) (l : List (T g').E) : inTree g (l.map (Sigma.mk g')) = [] := by
  induction l with
  | nil => rfl
  | cons x l ih => rw [List.map_cons, inTree_cons_other h, ih]

theorem mem_inTree {g : Nat} {e : (T g).E} : ∀ {seq : List (Leaf T)}, e ∈ inTree g seq ↔ ⟨g, e⟩ ∈ seq
  | [] => by simp [inTree]
  | ⟨g', x⟩ :: seq => by
    by_cases h : g' = g
    · subst h
      rw [inTree_cons_same, List.mem_cons, List.mem_cons, mem_inTree]
      simp
    · rw [inTree_cons_other h, List.mem_cons, mem_inTree]
      constructor
      · exact Or.inr
      · rintro (h' | h')
        · exact absurd (congrArg Sigma.fst h').symm h
        · exact h'

/-! ### Refinement -/

theorem Refines.refl : ∀ (seq : List (Leaf T)), Refines seq seq
  | [] => .nil
  | ⟨_, e⟩ :: seq => .cons (part := [e]) (.leaf e) (Refines.refl seq)

theorem Refines.append {a a' b b' : List (Leaf T)} (h : Refines a a') (h' : Refines b b') : Refines (a ++ b) (a' ++ b') := by
  induction h with
  | nil => exact h'
  | cons ht _ ih =>
    rw [List.cons_append, List.append_assoc]
    exact .cons ht ih

theorem Refines.split {b c : List (Leaf T)} : ∀ {a : List (Leaf T)}, Refines (a ++ b) c → ∃ c1 c2, c = c1 ++ c2 ∧ Refines a c1 ∧ Refines b c2
  | [], h => ⟨[], c, rfl, .nil, h⟩
  | x :: a, h => by
    generalize hx : x :: a ++ b = s at h
    cases h with
    | nil => cases hx
    | @cons g e part old new ht hr =>
      rw [List.cons_append] at hx
      obtain ⟨rfl, rfl⟩ := List.cons.inj hx
      obtain ⟨c1, c2, rfl, h1, h2⟩ := Refines.split hr
      exact ⟨part.map (Sigma.mk g) ++ c1, c2, by rw [List.append_assoc], .cons ht h1, h2⟩

theorem Refines.tiles {g : Nat} {e : (T g).E} {part : List (T g).E} (ht : (T g).Tiles e part) :
    ∀ {c : List (Leaf T)}, Refines (part.map (Sigma.mk g)) c → ∃ part', c = part'.map (Sigma.mk g) ∧ (T g).Tiles e part' := by
  induction ht with
  | leaf e =>
    intro c h
    generalize hx : ([e].map (Sigma.mk g) : List (Leaf T)) = s at h
    cases h with
    | nil => cases hx
    | @cons g' e' part old new ht hr =>
      obtain ⟨h1, rfl⟩ := List.cons.inj hx
      obtain ⟨rfl, h2⟩ := Sigma.mk.inj h1
      obtain rfl := eq_of_heq h2
      cases hr
      exact ⟨part, by simp, ht⟩
  | node e ls hl _ ih =>
    intro c h
    have key : ∀ n, n ≤ (T g).nc e → ∀ c, Refines (((List.range n).flatMap ls).map (Sigma.mk g)) c →
        ∃ ls' : Nat → List (T g).E, c = ((List.range n).flatMap ls').map (Sigma.mk g) ∧ ∀ i, i < n → (T g).Tiles ((T g).child e i) (ls' i) := by
      intro n
      induction n with
      | zero =>
        intro _ c h
        cases h
        exact ⟨ls, by simp, by simp⟩
      | succ n ihn =>
        intro hn c h
        rw [List.range_succ, List.flatMap_append, List.map_append] at h
        obtain ⟨c1, c2, rfl, h1, h2⟩ := Refines.split h
        obtain ⟨ls', rfl, hls⟩ := ihn (by omega) c1 h1
        rw [List.flatMap_singleton] at h2
        obtain ⟨part', rfl, hp⟩ := ih n (by omega) h2
        refine ⟨fun i => if i = n then part' else ls' i, ?_, ?_⟩
        · rw [List.range_succ, List.flatMap_append, List.flatMap_singleton, List.map_append, if_pos rfl]
          congr 2
          apply List.flatMap_congr
          intro i hi
          rw [if_neg (by have := List.mem_range.1 hi; omega)]
        · intro i hi
          dsimp only
          by_cases hin : i = n
          · subst hin; rw [if_pos rfl]; exact hp
          · rw [if_neg hin]; exact hls i (by omega)
    obtain ⟨ls', rfl, hls⟩ := key _ le_rfl c h
    exact ⟨_, rfl, .node e ls' hl hls⟩

theorem Refines.trans {a b c : List (Leaf T)} (h : Refines a b) : Refines b c → Refines a c := by
  induction h generalizing c with
  | nil => exact id
  | cons ht _ ih =>
    intro h
    obtain ⟨c1, c2, rfl, h1, h2⟩ := Refines.split h
    obtain ⟨part', rfl, hp⟩ := Refines.tiles ht h1
    exact .cons hp (ih h2)

/-- Refinement keeps the leaves of each tree in order. -/
theorem Refines.ordered {a b : List (Leaf T)} (h : Refines a b) (g : Nat) (ho : (T g).Ordered (inTree g a)) :
    (T g).Ordered (inTree g b) ∧ ∀ y ∈ inTree g b, ∃ x ∈ inTree g a, (T g).Desc x y := by
  induction h with
  | nil => exact ⟨ho, by simp [inTree]⟩
  | @cons g' e part old new ht hr ih =>
    rw [inTree_append]
    by_cases hg : g' = g
    · subst hg
      rw [inTree_cons_same] at ho ⊢
      rw [inTree_map_same]
      have hv : (T g').Valid e := ho.1 e (by simp)
      obtain ⟨i1, i2⟩ := ih (ho.sublist (List.sublist_cons_self ..))
      have hto := ht.ordered hv
      refine ⟨⟨?_, List.pairwise_append.2 ⟨hto.2, i1.2, ?_⟩⟩, ?_⟩
      · intro x hx
        rcases List.mem_append.1 hx with hx | hx
        · exact hto.1 x hx
        · exact i1.1 x hx
      · intro x hx y hy
        obtain ⟨z, hz, hd⟩ := i2 y hy
        exact ((List.pairwise_cons.1 ho.2).1 z hz).desc (ht.desc hv x hx) hd
      · intro y hy
        rcases List.mem_append.1 hy with hy | hy
        · exact ⟨e, by simp, ht.desc hv y hy⟩
        · obtain ⟨z, hz, hd⟩ := i2 y hy
          exact ⟨z, by simp [hz], hd⟩
    · rw [inTree_cons_other hg] at ho ⊢
      rw [inTree_map_other hg, List.nil_append]
      exact ih ho

theorem Refines.nonempty {a b : List (Leaf T)} (h : Refines a b) : a = [] → b = [] := by
  intro ha
  cases h with
  | nil => rfl
  | cons => cases ha

/-! ### A number that decreases under refinement -/

/-- The number of refinements needed to refine `e` uniformly by `n` levels. -/
def inner (T : RTree) : Nat → T.E → Nat
  | 0, _ => 0
  | n + 1, e => 1 + ((List.range (T.nc e)).map (fun i => inner T n (T.child e i))).sum

/-- The number of refinements needed to refine the leaf to level `L`. -/
def Leaf.toDo (L : Nat) (x : Leaf T) : Nat := inner (T x.1) (L - x.level) x.2

theorem toDo_refine {L g : Nat} {e : (T g).E} (he : (T g).Valid e) (hm : (T g).level e < (T g).maxLevel) (hl : (T g).level e < L) :
    Leaf.toDo L ⟨g, e⟩ = 1 + ((((List.range ((T g).nc e)).map ((T g).child e)).map (Sigma.mk g)).map (Leaf.toDo L)).sum := by
  obtain ⟨n, hn⟩ : ∃ n, L - (T g).level e = n + 1 := ⟨L - (T g).level e - 1, by omega⟩
  rw [Leaf.toDo, Leaf.level]
  dsimp only
  rw [hn, inner, List.map_map, List.map_map]
  congr 2
  apply List.map_congr_left
  intro i hi
  have := (T g).level_child e i he hm (List.mem_range.1 hi)
  simp only [Function.comp, Leaf.toDo, Leaf.level]
  rw [this, show L - ((T g).level e + 1) = n by omega]

theorem sum_flatMap_le {α β : Type} {f : α → Nat} {k : β → Nat} {s : α → List β} : ∀ {l : List α}, (∀ x ∈ l, ((s x).map k).sum ≤ f x) →
    ((l.flatMap s).map k).sum ≤ (l.map f).sum ∧
      ((∃ x ∈ l, ((s x).map k).sum < f x) → ((l.flatMap s).map k).sum < (l.map f).sum)
  | [], _ => by simp
  | x :: l, h => by
    obtain ⟨h1, h2⟩ := sum_flatMap_le (l := l) (fun y hy => h y (by simp [hy]))
    have h3 := h x (by simp)
    rw [List.flatMap_cons, List.map_append, List.sum_append, List.map_cons, List.sum_cons]
    refine ⟨by omega, ?_⟩
    rintro ⟨y, hy, hlt⟩
    rcases List.mem_cons.1 hy with rfl | hy
    · omega
    · have := h2 ⟨y, hy, hlt⟩
      omega

end T8.BalanceSpec
