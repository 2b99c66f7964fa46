/-
Lemmas on recursive coarsening (`Model/Adapt.lean`).
-/
import Verif.Lemmas.AdaptRefine
import Verif.Lemmas.Segment

namespace T8
namespace RTree
variable {T : RTree}

/-- What lies between two elements of `p` is in `p`. -/
theorem desc_between {p x y z : T.E} (hp : T.Valid p) (h1 : T.Before x y) (h2 : T.Before y z) (hx : T.Desc p x)
    (hz : T.Desc p z) : T.Desc p y := by
  rcases position_cases hp h1.valid.2 with h | h | h | h
  · exact h
  · exact absurd ⟨Desc.refl, h.trans hx⟩ h1.not_comparable
  · exact absurd h2 (h.desc hz Desc.refl).asymm
  · exact absurd h1 (h.desc Desc.refl hx).asymm

theorem desc_parent {x : T.E} (hx : T.Valid x) (h0 : 0 < T.level x) : T.Desc (T.parent x) x := by
  have h1 := T.child_parent x hx h0
  have h2 := T.level_parent x hx h0
  have h3 := T.level_le x hx
  have h4 := T.childId_lt x hx h0
  conv => arg 3; rw [← h1]
  exact Desc.child_self (by omega) h4

/-- A descendant one level finer is a child. -/
theorem Desc.parent_eq {p x : T.E} (hp : T.Valid p) (h : T.Desc p x) (hl : T.level x = T.level p + 1) : T.parent x = p := by
  have h1 := h.anc_eq hp
  rw [anc, hl, show T.level p + 1 - T.level p = 1 by omega] at h1
  exact h1

theorem childId_lt_of_before {x y : T.E} (hx : 0 < T.level x) (hy : 0 < T.level y) (hpar : T.parent x = T.parent y)
    (h : T.Before x y) : T.childId x < T.childId y := by
  obtain ⟨vx, vy⟩ := h.valid
  have cx := T.child_parent x vx hx
  have cy := T.child_parent y vy hy
  have hl := T.level_parent x vx hx
  have := T.level_le x vx
  have h3 := T.childId_lt x vx hx
  have vp := T.valid_parent x vx hx
  rw [← hpar] at cy
  rcases Nat.lt_trichotomy (T.childId x) (T.childId y) with h' | h' | h'
  · exact h'
  · rw [h', cy] at cx
    rw [cx] at h
    exact absurd h Before.irrefl
  · have hb := before_children vp (by omega) h' h3
    rw [cx, cy] at hb
    exact absurd h hb.asymm

end RTree

theorem increasing_length {n : Nat} : ∀ {l : List Nat} {a : Nat}, l.Pairwise (· < ·) → (∀ x ∈ l, a ≤ x ∧ x < n) →
    l.length ≤ n - a := by
  intro l
  induction l with
  | nil => intro a _ _; simp
  | cons x xs ih =>
    intro a hp h
    rw [List.pairwise_cons] at hp
    have h1 := h x (by simp)
    have := ih (a := x + 1) hp.2 (fun y hy => ⟨hp.1 y hy, (h y (by simp [hy])).2⟩)
    simp only [List.length_cons]; omega

namespace RTree
variable {T : RTree}

/-- Siblings in order: their number is bounded, and if all are present then the first has child id 0. -/
theorem siblings_length {p : T.E} {g : List T.E} (hv : ∀ x ∈ g, T.Valid x) (ho : g.Pairwise T.Before)
    (hs : ∀ x ∈ g, T.parent x = p ∧ 0 < T.level x) :
    g.length ≤ T.nc p ∧ (g.length = T.nc p → ∀ x, g.head? = some x → T.childId x = 0) := by
  have hinc : (g.map T.childId).Pairwise (· < ·) := by
    rw [List.pairwise_map]
    refine ho.imp_of_mem ?_
    intro x y hx hy hb
    exact childId_lt_of_before (hs x hx).2 (hs y hy).2 ((hs x hx).1.trans (hs y hy).1.symm) hb
  have hlt : ∀ i ∈ g.map T.childId, 0 ≤ i ∧ i < T.nc p := by
    intro i hi
    obtain ⟨x, hx, rfl⟩ := List.mem_map.1 hi
    have := T.childId_lt x (hv x hx) (hs x hx).2
    rw [(hs x hx).1] at this
    exact ⟨by omega, this⟩
  have h1 := increasing_length hinc hlt
  rw [List.length_map] at h1
  refine ⟨by omega, fun hlen x hx => ?_⟩
  cases g with
  | nil => simp at hx
  | cons y ys =>
    simp only [List.head?_cons, Option.some.injEq] at hx
    subst hx
    rw [List.map_cons, List.pairwise_cons] at hinc
    have h2 := increasing_length (a := T.childId y) (n := T.nc p) (l := T.childId y :: ys.map T.childId)
      (List.pairwise_cons.2 hinc) (by
        intro i hi
        refine ⟨?_, (hlt i (by simpa using hi)).2⟩
        rcases List.mem_cons.1 hi with rfl | hi
        · exact le_rfl
        · exact (hinc.1 i hi).le)
    simp only [List.length_cons, List.length_map] at h2 hlen
    have := (hlt (T.childId y) (by simp)).2
    omega

end RTree

namespace Adapt
open RTree
variable {T : RTree} {S : Scheme T} {σ : Type}

/-- From index `pos` on, `tel` consists of children of `p`, ending with the last child; coarsening them creates no
overlap. -/
structure LastGroup (rank : Nat) (tel : List T.E) (pos : Nat) (p : T.E) : Prop where
  lt : pos < tel.length
  valid : T.Valid p
  level : T.level p < T.maxLevel
  all : ∀ x ∈ tel.drop pos, T.parent x = p ∧ T.level x = T.level p + 1
  last : ∀ x, tel.getLast? = some x → T.childId x + 1 = T.nc p
  before : ∀ x ∈ tel.take pos, ¬ T.Desc p x
  zero : pos = 0 → 0 < rank → ∀ x, tel.head? = some x → T.childId x = 0

theorem posLoop_spec {tel : List T.E} {lc : Nat} {par : T.E} (hS : S.Lawful) (hv : ∀ x ∈ tel, T.Valid x)
    (hne : 0 < tel.length) (hlc : 0 < lc) (hpar : T.Valid par) :
    ∀ (left elIter : Nat) (pos : Int), 1 ≤ elIter → elIter ≤ tel.length →
    (∀ k, tel.length - elIter ≤ k → ∀ x : T.E, tel[k]? = some x → T.level x = lc ∧ T.parent x = par) →
    ((elIter = 1 ∧ pos = -1) ∨ (1 < elIter ∧ pos = ((tel.length - elIter : Nat) : Int))) →
    ∃ k q c, posLoop S tel (tel.length - 1) lc par left elIter pos = some (k, q, c) ∧
      1 ≤ k ∧ k ≤ tel.length ∧ k ≤ elIter + left ∧
      (∀ j, tel.length - k ≤ j → ∀ x : T.E, tel[j]? = some x → T.level x = lc ∧ T.parent x = par) ∧
      ((c = none ∧ (k = elIter + left ∨ k = tel.length) ∧
          ((k = 1 ∧ q = -1) ∨ (1 < k ∧ q = ((tel.length - k : Nat) : Int)))) ∨
       (∃ x : T.E, c = some x ∧ k < elIter + left ∧ k < tel.length ∧ q = ((tel.length - k - 1 : Nat) : Int) ∧
          tel[tel.length - k - 1]? = some x ∧ (T.level x ≠ lc ∨ (T.level x = lc ∧ T.parent x ≠ par)))) := by
  intro left
  induction left with
  | zero =>
    intro elIter pos h1 h2 hall hpos
    exact ⟨elIter, pos, none, rfl, h1, h2, by omega, hall, Or.inl ⟨rfl, Or.inl (by omega), hpos⟩⟩
  | succ left ih =>
    intro elIter pos h1 h2 hall hpos
    rw [posLoop]
    by_cases hlt : elIter < tel.length
    · rw [if_pos hlt]
      have hq : ((tel.length - 1 : Nat) : Int) - elIter = ((tel.length - elIter - 1 : Nat) : Int) := by omega
      rw [hq]
      dsimp only
      rw [show assertO ((0 : Int) ≤ ((tel.length - elIter - 1 : Nat) : Int)) = some () from
        assertO_true (by omega), Int.toNat_natCast]
      obtain ⟨x, hx⟩ : ∃ x : T.E, tel[tel.length - elIter - 1]? = some x :=
        ⟨tel[tel.length - elIter - 1], List.getElem?_eq_getElem (by omega)⟩
      have vx : T.Valid x := hv x (List.mem_of_getElem? hx)
      simp only [Option.bind_eq_bind, Option.bind_some, hx]
      by_cases hl : lc ≠ T.level x
      · rw [if_pos hl]
        exact ⟨elIter, _, some x, rfl, h1, h2, by omega, hall,
          Or.inr ⟨x, rfl, by omega, hlt, rfl, hx, Or.inl (fun h => hl h.symm)⟩⟩
      · rw [if_neg hl]
        have hl' : T.level x = lc := by
          by_contra h
          exact hl (fun h' => h h'.symm)
        have hiff := hS.isEqual par (T.parent x) hpar (T.valid_parent x vx (by omega))
        by_cases heq : S.isEqual par (T.parent x) = true
        · rw [if_pos heq]
          have hp := (hiff.1 heq).symm
          obtain ⟨k, q, c, e1, e2, e3, e4, e5, e6⟩ := ih (elIter + 1) ((tel.length - elIter - 1 : Nat) : Int) (by omega)
            (by omega) (by
              intro j hj y hy
              rcases Nat.lt_or_ge j (tel.length - elIter) with h | h
              · have : j = tel.length - elIter - 1 := by omega
                subst this
                rw [hx] at hy
                obtain rfl := Option.some.inj hy
                exact ⟨hl', hp⟩
              · exact hall j h y hy)
            (Or.inr ⟨by omega, by congr 1⟩)
          refine ⟨k, q, c, e1, e2, e3, by omega, e5, ?_⟩
          rcases e6 with ⟨c1, c2, c3⟩ | ⟨y, c1, c2, c3, c4, c5, c6⟩
          · exact Or.inl ⟨c1, by omega, c3⟩
          · exact Or.inr ⟨y, c1, by omega, c3, c4, c5, c6⟩
        · rw [if_neg heq]
          exact ⟨elIter, _, some x, rfl, h1, h2, by omega, hall,
            Or.inr ⟨x, rfl, by omega, hlt, rfl, hx, Or.inr ⟨hl', fun h => heq (hiff.2 h.symm)⟩⟩⟩
    · rw [if_neg hlt]
      exact ⟨elIter, pos, none, rfl, h1, h2, by omega, hall, Or.inl ⟨rfl, Or.inr (by omega), hpos⟩⟩

theorem mem_drop_getElem? {α : Type} {l : List α} {n : Nat} {x : α} (h : x ∈ l.drop n) :
    ∃ k, n ≤ k ∧ l[k]? = some x := by
  obtain ⟨i, hi⟩ := List.mem_iff_getElem?.1 h
  rw [List.getElem?_drop] at hi
  exact ⟨n + i, by omega, hi⟩

theorem pairwise_getElem? {α : Type} {R : α → α → Prop} {l : List α} (h : l.Pairwise R) {i j : Nat} {x y : α}
    (hij : i < j) (hx : l[i]? = some x) (hy : l[j]? = some y) : R x y := by
  obtain ⟨hi, rfl⟩ := List.getElem?_eq_some_iff.1 hx
  obtain ⟨hj, rfl⟩ := List.getElem?_eq_some_iff.1 hy
  exact List.pairwise_iff_getElem.1 h i j hi hj hij

theorem mem_take_getElem? {α : Type} {l : List α} {n : Nat} {x : α} (h : x ∈ l.take n) :
    ∃ k, k < n ∧ l[k]? = some x := by
  obtain ⟨i, hi⟩ := List.mem_iff_getElem?.1 h
  rw [List.getElem?_take] at hi
  split at hi
  · exact ⟨i, by assumption, hi⟩
  · simp at hi

theorem forestPos_spec (hS : S.Lawful) {tel : List T.E} (ho : T.Ordered tel) (rank : Nat) {e : T.E}
    (hlast : tel.getLast? = some e) :
    ∃ r, forestPos S rank tel (tel.length - 1) = some r ∧
      (r < 0 ∨ ∃ pos : Nat, r = pos ∧ LastGroup rank tel pos (T.parent e) ∧ 0 < T.level e) := by
  obtain ⟨hv, hp⟩ := ho
  have hne : 0 < tel.length := by
    rcases Nat.eq_zero_or_pos tel.length with h | h
    · rw [List.length_eq_zero_iff] at h; subst h; simp at hlast
    · exact h
  have he : tel[tel.length - 1]? = some e := by rw [← hlast, List.getLast?_eq_getElem?]
  have ve := hv e (List.mem_of_getElem? he)
  simp only [forestPos, he, Option.bind_eq_bind, Option.bind_some]
  by_cases hc : ¬ (0 < S.childId e ∧ S.childId e = (S.numSiblings e : Int) - 1) ∨ T.level e = 0
  · rw [if_pos hc]
    exact ⟨_, rfl, Or.inl (by decide)⟩
  · rw [if_neg hc]
    rw [not_or, not_not] at hc
    obtain ⟨⟨c1, c2⟩, c3⟩ := hc
    have h0 : 0 < T.level e := by omega
    have vp := T.valid_parent e ve h0
    have lp := T.level_parent e ve h0
    have lm := T.level_le e ve
    have hns := hS.numSiblings e ve h0
    have hci := hS.childId e ve h0
    have hlastid : T.childId e + 1 = T.nc (T.parent e) := by rw [hns] at c2; omega
    have hn2 : 2 ≤ S.numSiblings e := by omega
    obtain ⟨k, q, c, e1, e2, e3, e4, e5, e6⟩ := posLoop_spec (tel := tel) (lc := T.level e) (par := T.parent e) hS hv hne
      h0 vp (S.numSiblings e - 1) 1 (-1) le_rfl hne (by
        intro j hj x hx
        have hj' : j < tel.length := (List.getElem?_eq_some_iff.1 hx).1
        have : j = tel.length - 1 := by omega
        subst this
        rw [he] at hx
        obtain rfl := Option.some.inj hx
        exact ⟨rfl, rfl⟩) (Or.inl ⟨rfl, rfl⟩)
    rw [e1, Option.bind_some]
    have hall : ∀ x ∈ tel.drop (tel.length - k), T.parent x = T.parent e ∧ T.level x = T.level (T.parent e) + 1 := by
      intro x hx
      obtain ⟨j, hj, hj'⟩ := mem_drop_getElem? hx
      obtain ⟨a1, a2⟩ := e5 j hj x hj'
      exact ⟨a2, by omega⟩
    have hlastg : ∀ x, tel.getLast? = some x → T.childId x + 1 = T.nc (T.parent e) := by
      intro x hx
      rw [hlast] at hx
      obtain rfl := Option.some.inj hx
      exact hlastid
    -- the last step: the test for the first element of the process
    have hborder : ∀ pos : Nat, pos < tel.length →
        (∀ x ∈ tel.drop pos, T.parent x = T.parent e ∧ T.level x = T.level (T.parent e) + 1) →
        (∀ x ∈ tel.take pos, ¬ T.Desc (T.parent e) x) →
        ∃ r, (if (pos : Int) = 0 ∧ 0 < rank then (tel[0]?).bind fun border =>
            if 0 < S.childId border then some int32Min else some (pos : Int) else some (pos : Int)) = some r ∧
          (r < 0 ∨ ∃ pos : Nat, r = pos ∧ LastGroup rank tel pos (T.parent e) ∧ 0 < T.level e) := by
      intro pos hpos hall hbef
      by_cases hb : (pos : Int) = 0 ∧ 0 < rank
      · rw [if_pos hb]
        have hpos0 : pos = 0 := by omega
        subst hpos0
        obtain ⟨b, hb0⟩ : ∃ b, tel[0]? = some b := ⟨tel[0], List.getElem?_eq_getElem hne⟩
        rw [hb0, Option.bind_some]
        by_cases hcid : 0 < S.childId b
        · rw [if_pos hcid]
          exact ⟨_, rfl, Or.inl (by decide)⟩
        · rw [if_neg hcid]
          refine ⟨_, rfl, Or.inr ⟨0, rfl, ⟨hpos, vp, by omega, hall, hlastg, hbef, ?_⟩, h0⟩⟩
          intro _ _ x hx
          rw [List.head?_eq_getElem?, hb0] at hx
          obtain rfl := Option.some.inj hx
          have hbm := List.mem_of_getElem? hb0
          have := hS.childId b (hv b hbm) (by rw [(hall b (by simpa using hbm)).2]; omega)
          omega
      · rw [if_neg hb]
        refine ⟨_, rfl, Or.inr ⟨pos, rfl, ⟨hpos, vp, by omega, hall, hlastg, hbef, ?_⟩, h0⟩⟩
        intro h1 h2
        exact absurd ⟨by omega, h2⟩ hb
    rcases e6 with ⟨d1, d2, d3⟩ | ⟨x, d1, d2, d3, d4, d5, d6⟩
    · -- the loop was not left by break
      subst d1
      rw [posAfter, if_neg (by omega), Option.bind_some]
      rcases d3 with ⟨d3, rfl⟩ | ⟨d3, rfl⟩
      · rw [if_neg (by omega)]
        exact ⟨_, rfl, Or.inl (by decide)⟩
      · refine hborder (tel.length - k) (by omega) hall ?_
        intro y hy
        obtain ⟨j, hj, hj'⟩ := mem_take_getElem? hy
        rcases d2 with d2 | d2
        · -- all siblings are present
          have hlen : (tel.drop (tel.length - k)).length = T.nc (T.parent e) := by
            rw [List.length_drop]; omega
          obtain ⟨f, hf⟩ : ∃ f, tel[tel.length - k]? = some f := ⟨tel[tel.length - k], List.getElem?_eq_getElem (by omega)⟩
          have hhead : (tel.drop (tel.length - k)).head? = some f := by
            rw [List.head?_eq_getElem?, List.getElem?_drop, Nat.add_zero, hf]
          have hfm : f ∈ tel.drop (tel.length - k) := List.mem_of_head? hhead
          have hf0 := (siblings_length (fun x hx => hv x (List.mem_of_mem_drop hx)) (hp.sublist (List.drop_sublist _ _))
            (fun x hx => ⟨(hall x hx).1, by rw [(hall x hx).2]; omega⟩)).2 hlen f hhead
          exact not_desc_before_first vp (hv f (List.mem_of_mem_drop hfm)) (by rw [(hall f hfm).2]; omega)
            (hall f hfm).1 hf0 (pairwise_getElem? hp hj hj' hf)
        · omega
    · -- the loop was left at the element `x`
      subst d1 d4
      have hxe : T.Before x e := pairwise_getElem? hp (by omega) d5 he
      have vx := hxe.valid.1
      have hde : T.Desc (T.parent e) e := desc_parent ve h0
      have hbefore : ¬ T.Desc (T.parent e) x → ∀ y ∈ tel.take (tel.length - k), ¬ T.Desc (T.parent e) y := by
        intro hnx y hy hd
        obtain ⟨j, hj, hj'⟩ := mem_take_getElem? hy
        rcases Nat.lt_or_ge j (tel.length - k - 1) with h | h
        · exact hnx (desc_between vp (pairwise_getElem? hp h hj' d5) hxe hd hde)
        · have : j = tel.length - k - 1 := by omega
          subst this
          rw [d5] at hj'
          obtain rfl := Option.some.inj hj'
          exact hnx hd
      have hpos1 : ((tel.length - k - 1 : Nat) : Int) + 1 = ((tel.length - k : Nat) : Int) := by omega
      rw [posAfter, if_pos (by omega)]
      simp only [Option.bind_eq_bind, Option.bind_some]
      by_cases hlx : T.level x > T.level e
      · rw [if_pos hlx]
        obtain ⟨a, ha, va, hnca⟩ := hS.nca e x ve vx
        have hae : T.level a ≤ T.level e := hnca.1.level_le va
        have hlt : T.level a + 1 ≤ T.level e := by
          by_contra hcon
          have : T.level a = T.level e := by omega
          have : e = a := hnca.1.eq_of_level va (by omega)
          subst this
          exact hxe.not_desc.2 hnca.2.1
        rw [ha, Option.bind_some, show assertO (T.level a + 1 ≤ T.level e) = some () from assertO_true hlt, Option.bind_some]
        by_cases hov : T.level a + 1 = T.level e
        · rw [if_pos hov, Option.bind_some, if_neg (by simp [int32Min])]
          exact ⟨_, rfl, Or.inl (by decide)⟩
        · rw [if_neg hov, Option.bind_some, hpos1]
          refine hborder (tel.length - k) (by omega) hall (hbefore ?_)
          intro hd
          have := (hnca.2.2 _ vp hde hd).level_le vp
          omega
      · rw [if_neg hlx, Option.bind_some, hpos1]
        refine hborder (tel.length - k) (by omega) hall (hbefore ?_)
        intro hd
        rcases d6 with d6 | ⟨d6, d7⟩
        · have : x = T.parent e := hd.eq_of_level vp (by omega)
          subst this
          exact hxe.not_desc.1 hde
        · exact d7 (hd.parent_eq vp (by omega))

end Adapt
end T8
