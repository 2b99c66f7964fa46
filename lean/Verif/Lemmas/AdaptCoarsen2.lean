/-
Lemmas on recursive coarsening, continued: the loop.
-/
import Verif.Lemmas.AdaptCoarsen

namespace T8

theorem increasing_eq_range {n : Nat} : ∀ {l : List Nat} {a : Nat}, l.Pairwise (· < ·) → (∀ x ∈ l, a ≤ x ∧ x < n) →
    l.length = n - a → l = List.range' a (n - a) := by
  intro l
  induction l with
  | nil => intro a _ _ h; simp at h; rw [← h]; rfl
  | cons x xs ih =>
    intro a hp h hlen
    have h1 := h x (by simp)
    have hp' := List.pairwise_cons.1 hp
    have h2 := increasing_length (a := x) (n := n) hp (by
      intro y hy
      refine ⟨?_, (h y hy).2⟩
      rcases List.mem_cons.1 hy with rfl | hy
      · exact le_rfl
      · exact (hp'.1 y hy).le)
    have hx : x = a := by omega
    subst hx
    have := ih (a := x + 1) hp'.2 (fun y hy => ⟨hp'.1 y hy, (h y (by simp [hy])).2⟩) (by simp at hlen; omega)
    rw [this, show n - x = (n - (x + 1)) + 1 by omega, List.range'_succ]

namespace RTree
variable {T : RTree}

/-- All siblings in order are the family. -/
theorem siblings_full {p : T.E} {g : List T.E} (hv : ∀ x ∈ g, T.Valid x) (ho : g.Pairwise T.Before)
    (hs : ∀ x ∈ g, T.parent x = p ∧ 0 < T.level x) (hlen : g.length = T.nc p) (hp : T.Valid p)
    (hl : T.level p < T.maxLevel) : T.IsFamilyOf g p := by
  have hinc : (g.map T.childId).Pairwise (· < ·) := by
    rw [List.pairwise_map]
    refine ho.imp_of_mem ?_
    intro x y hx hy hb
    exact childId_lt_of_before (hs x hx).2 (hs y hy).2 ((hs x hx).1.trans (hs y hy).1.symm) hb
  have hlt : ∀ i ∈ g.map T.childId, 0 ≤ i ∧ i < T.nc p := by
    intro i hi
    obtain ⟨x, hx, rfl⟩ := List.mem_map.1 hi
    have := T.childId_lt x (hv x hx) (hs x hx).2
    rw [(hs x hx).1] at this
    exact ⟨by omega, this⟩
  have h1 := increasing_eq_range hinc hlt (by rw [List.length_map]; omega)
  rw [Nat.sub_zero, ← List.range_eq_range'] at h1
  refine ⟨hp, hl, ?_⟩
  rw [← h1, List.map_map]
  symm
  conv_rhs => rw [← List.map_id g]
  refine List.map_congr_left fun x hx => ?_
  show T.child p (T.childId x) = id x
  rw [← (hs x hx).1]
  exact T.child_parent x (hv x hx) (hs x hx).2

end RTree

namespace Adapt
open RTree
variable {T : RTree} {S : Scheme T} {σ : Type}

/-- Coarsening the last group of `tel` inside a longer leaf list. -/
theorem LastGroup.replace {rank : Nat} {A tel B : List T.E} {pos : Nat} {p : T.E} (h : LastGroup rank tel pos p)
    (ho : T.Ordered (A ++ tel ++ B)) (hA : A ≠ [] → 0 < rank) : T.Ordered (A ++ (tel.take pos ++ [p]) ++ B) := by
  have hsplit : A ++ tel ++ B = (A ++ tel.take pos) ++ tel.drop pos ++ B := by
    rw [List.append_assoc A (tel.take pos), List.take_append_drop]
  have ho' := ho
  rw [hsplit] at ho
  rw [show A ++ (tel.take pos ++ [p]) ++ B = (A ++ tel.take pos) ++ [p] ++ B by simp]
  have hgne : tel.drop pos ≠ [] := by
    intro h0
    have := congrArg List.length h0
    rw [List.length_drop] at this
    have := h.lt
    simp only [List.length_nil] at *
    omega
  have hv : ∀ x ∈ tel.drop pos, T.Valid x := fun x hx => ho.1 x (by simp [List.mem_of_mem_drop hx])
  have hd : ∀ x ∈ tel.drop pos, T.Desc p x := by
    intro x hx
    obtain ⟨h1, h2⟩ := h.all x hx
    rw [← h1]
    exact desc_parent (hv x hx) (by omega)
  refine ho.replace_group h.valid hgne hd ?_ ?_
  · intro y hy
    rcases List.mem_append.1 hy with hyA | hy
    · rcases Nat.eq_zero_or_pos pos with h0 | h0
      · -- the group begins the array
        subst h0
        rw [List.take_zero, List.append_nil] at hy
        have hrank := hA (List.ne_nil_of_mem hy)
        obtain ⟨f, hf⟩ : ∃ f, tel.head? = some f := by
          cases tel with
          | nil => simp at hgne
          | cons a as => exact ⟨a, rfl⟩
        have hfm : f ∈ tel.drop 0 := by simpa using List.mem_of_head? hf
        have hpw := ho'.2
        rw [List.pairwise_append, List.pairwise_append] at hpw
        exact not_desc_before_first h.valid (hv f hfm) (by rw [(h.all f hfm).2]; omega) (h.all f hfm).1
          (h.zero rfl hrank f hf) (hpw.1.2.2 y hy f (by simpa using hfm))
      · -- an element in between is not in p
        intro hdy
        have hlen : 0 < (tel.take pos).length := by
          rw [List.length_take]; have := h.lt; omega
        obtain ⟨x, hx⟩ := List.exists_mem_of_length_pos hlen
        obtain ⟨z, hz⟩ := List.exists_mem_of_ne_nil _ hgne
        have hpw := ho.2
        rw [List.pairwise_append, List.pairwise_append, List.pairwise_append] at hpw
        have b1 : T.Before y x := hpw.1.1.2.2 y hyA x hx
        have b2 : T.Before x z := hpw.1.2.2 x (by simp [hx]) z hz
        exact h.before x hx (desc_between h.valid b1 b2 hdy (hd z hz))
    · exact h.before y hy
  · intro y hy
    obtain ⟨z, hz⟩ : ∃ z, tel.getLast? = some z := by
      cases htel : tel.getLast? with
      | none => rw [List.getLast?_eq_none_iff] at htel; subst htel; simp at hgne
      | some z => exact ⟨z, rfl⟩
    have hzm : z ∈ tel.drop pos := by
      have h1 : tel[tel.length - 1]? = some z := by rw [← hz, List.getLast?_eq_getElem?]
      have hlt := h.lt
      rw [List.mem_iff_getElem?]
      exact ⟨tel.length - 1 - pos, by rw [List.getElem?_drop, show pos + (tel.length - 1 - pos) = tel.length - 1 by omega, h1]⟩
    have hpw := ho.2
    rw [List.pairwise_append] at hpw
    exact not_desc_after_last h.valid (hv z hzm) (by rw [(h.all z hzm).2]; omega) (h.all z hzm).1 (h.last z hz)
      (hpw.2.2 z (List.mem_append_right _ hzm) y hy)

theorem LastGroup.size {rank : Nat} {tel : List T.E} {pos : Nat} {p : T.E} (h : LastGroup rank tel pos p)
    (ho : T.Ordered tel) : tel.length - pos ≤ T.nc p := by
  have := (siblings_length (fun x hx => ho.1 x (List.mem_of_mem_drop hx)) (ho.2.sublist (List.drop_sublist pos tel))
    (fun x hx => ⟨(h.all x hx).1, by rw [(h.all x hx).2]; omega⟩)).1
  rwa [List.length_drop] at this

/-- The group in recursive coarsening: nothing or all elements from `pos` on. -/
theorem coarsenGroup_spec (hS : S.Lawful) {rank : Nat} {tel : List T.E} {pos : Nat} {p : T.E} (h : LastGroup rank tel pos p)
    (ho : T.Ordered tel) (incomplete : Bool) :
    ∃ num, coarsenGroup S incomplete (T.nc p) tel.length pos tel = some num ∧
      (num = 0 ∨ (num = tel.length - pos ∧ 0 < num ∧ (incomplete = false → T.IsFamilyOf (tel.drop pos) p))) := by
  have hlt := h.lt
  have hsize := h.size ho
  have hlen : (tel.drop pos).length = tel.length - pos := List.length_drop
  rw [coarsenGroup]
  cases incomplete with
  | true =>
    rw [if_pos rfl, show assertO (pos < tel.length ∧ tel.length - pos ≤ T.nc p) = some () from assertO_true ⟨hlt, hsize⟩]
    exact ⟨_, rfl, Or.inr ⟨rfl, by omega, by simp⟩⟩
  | false =>
    rw [if_neg (by decide), List.take_of_length_le (by omega)]
    by_cases hfull : (tel.drop pos).length = T.nc p
    · rw [if_pos hfull]
      obtain ⟨f, hf⟩ : ∃ f, (tel.drop pos).head? = some f := by
        cases hd : tel.drop pos with
        | nil => rw [hd] at hlen; simp at hlen; omega
        | cons a as => exact ⟨a, rfl⟩
      have hfm := List.mem_of_head? hf
      have hfv := ho.1 f (List.mem_of_mem_drop hfm)
      have hns := hS.numSiblings f hfv (by rw [(h.all f hfm).2]; omega)
      rw [(h.all f hfm).1] at hns
      have hfam : T.IsFamilyOf (tel.drop pos) p := siblings_full (fun x hx => ho.1 x (List.mem_of_mem_drop hx))
        (ho.2.sublist (List.drop_sublist pos tel)) (fun x hx => ⟨(h.all x hx).1, by rw [(h.all x hx).2]; omega⟩) hfull
        h.valid h.level
      obtain ⟨b, hb, hbi⟩ := hS.family hf (by rw [hfull, hns])
        (fun x hx => ho.1 x (List.mem_of_mem_drop hx)) (fun x hx => by rw [(h.all x hx).2]; omega) (Or.inr hfam.segment)
      rw [hb, hbi.2 ⟨p, hfam⟩]
      exact ⟨_, rfl, Or.inr ⟨by simp; omega, by have := T.nc_pos _ h.valid; simpa using this, fun _ => hfam⟩⟩
    · rw [if_neg hfull]
      exact ⟨_, rfl, Or.inl rfl⟩

/-- What recursive coarsening guarantees: `P` is any property that passes from an element to its parent. -/
theorem coarsen_spec (hS : S.Lawful) {cfg : Cfg} (cb : Callback σ T.E) (lt le : Nat) {A tel B : List T.E} {e : T.E}
    (ho : T.Ordered (A ++ tel ++ B)) (hA : A ≠ [] → 0 < cfg.mpirank) (hlast : tel.getLast? = some e)
    (h0 : 0 < T.level e) (elCoarsen : Nat) (s0 : σ) (P : T.E → Prop)
    (hP : ∀ x, T.Valid x → 0 < T.level x → P x → P (T.parent x)) (hPt : ∀ x ∈ tel, P x) :
    ∃ tel' s', coarsenRecursive S cfg cb lt le tel elCoarsen tel.length s0 = some (tel', tel'.length, s') ∧
      tel' ≠ [] ∧ T.Ordered (A ++ tel' ++ B) ∧ (∀ x ∈ tel', P x) ∧
      (cfg.incomplete = false → weight tel' = weight tel) := by
  have hsubl : ∀ t : List T.E, T.Ordered (A ++ t ++ B) → T.Ordered t := fun t h =>
    h.sublist ((List.sublist_append_right A t).trans (List.sublist_append_left _ B))
  have hetel : tel[tel.length - 1]? = some e := by rw [← hlast, List.getLast?_eq_getElem?]
  obtain ⟨r0, hr0, hpos0⟩ := forestPos_spec hS (hsubl tel ho) cfg.mpirank hlast
  let I : CState σ T.E → Prop := fun s =>
    s.inserted = s.telements.length ∧ T.Ordered (A ++ s.telements ++ B) ∧ (∀ x ∈ s.telements, P x) ∧
    (cfg.incomplete = false → weight s.telements = weight tel) ∧
    ∃ x, s.telements.getLast? = some x ∧
      (s.pos < 0 ∨ (s.numSiblings = T.nc (T.parent x) ∧ 0 < T.level x ∧
        ∃ pos : Nat, s.pos = pos ∧ LastGroup cfg.mpirank s.telements pos (T.parent x)))
  have hinit : I ⟨true, r0, tel.length, tel, S.numSiblings e, s0⟩ := by
    refine ⟨rfl, ho, hPt, fun _ => rfl, e, hlast, ?_⟩
    rcases hpos0 with h | ⟨pos, h1, h2, h3⟩
    · exact Or.inl h
    · exact Or.inr ⟨hS.numSiblings e (ho.1 e (by simp [List.mem_of_getLast? hlast])) h0, h0, pos, h1, h2⟩
  have key := whileO_spec
    (cond := fun s : CState σ T.E =>
      some (s.isFamily && decide (s.pos ≥ (elCoarsen : Int)) && decide (s.pos < s.telements.length)))
    (body := coarsenBody S cfg cb lt le) I
    (fun s => (match s.telements.getLast? with | some x => T.level x | none => 0) + (if s.isFamily then 1 else 0))
    ?_ _ hinit
  · obtain ⟨r, hr, ⟨i1, i2, i3, i4, x, i5, _⟩, _⟩ := key
    refine ⟨r.telements, r.st, ?_, ?_, i2, i3, i4⟩
    · simp only [coarsenRecursive, hetel, Option.bind_eq_bind, Option.bind_some]
      rw [show assertO (0 < T.level e) = some () from assertO_true h0, Option.bind_some,
        show assertO True = some () from assertO_true trivial, Option.bind_some, hr0, Option.bind_some, hr,
        Option.bind_some, i1]
    · rintro hnil
      rw [hnil] at i5
      simp at i5
  · rintro ⟨isFam, p0, ins, t, ns, st⟩ ⟨i1, i2, i3, i4, x, i5, i6⟩
    simp only at i1 i2 i3 i4 i5 i6
    subst i1
    cases hcond : (isFam && decide (p0 ≥ (elCoarsen : Int)) && decide (p0 < (t.length : Int))) with
    | false => left; rfl
    | true =>
      right
      refine ⟨rfl, ?_⟩
      simp only [Bool.and_eq_true, decide_eq_true_eq] at hcond
      obtain ⟨⟨hf, hge⟩, hlt⟩ := hcond
      subst hf
      rcases i6 with h | ⟨i6, lx, pos, rfl, hg⟩
      · omega
      subst i6
      have hot := hsubl t i2
      have vx := hot.1 x (List.mem_of_getLast? i5)
      obtain ⟨num, hnum, hcases⟩ := coarsenGroup_spec hS hg hot cfg.incomplete
      simp only [coarsenBody, Int.toNat_natCast, hnum, Option.bind_eq_bind, Option.bind_some]
      rcases hcases with rfl | ⟨hn, hpos, hfam⟩
      · rw [if_pos rfl]
        refine ⟨_, rfl, ⟨rfl, i2, i3, i4, x, i5, Or.inr ⟨rfl, lx, pos, rfl, hg⟩⟩, ?_⟩
        simp [i5]
      · rw [if_neg (by omega)]
        by_cases hans : (cb st lt le true ((t.drop pos).take num)).1 = -1
        · rw [if_pos hans]
          obtain ⟨f, hf⟩ : ∃ f : T.E, t[pos]? = some f := ⟨t[pos], List.getElem?_eq_getElem hg.lt⟩
          have hfm : f ∈ t.drop pos := by
            rw [List.mem_iff_getElem?]; exact ⟨0, by rw [List.getElem?_drop]; simpa using hf⟩
          obtain ⟨hfp, hfl⟩ := hg.all f hfm
          have hplt := hg.lt
          have hnn : t.length - (num - 1) = pos + 1 := by omega
          have hset : (t.set pos (T.parent f)).take (t.length - (num - 1)) = t.take pos ++ [T.parent x] := by
            rw [hnn, hfp, List.set_eq_take_append_cons_drop, if_pos hplt,
              List.take_append, List.length_take, Nat.min_eq_left hplt.le,
              List.take_of_length_le (by rw [List.length_take]; omega), show pos + 1 - pos = 1 by omega, List.take_one]
            rfl
          have hlen' : (t.take pos ++ [T.parent x]).length = pos + 1 := by
            rw [List.length_append, List.length_take, Nat.min_eq_left hplt.le]; rfl
          have ho' := hg.replace i2 hA
          have hlast' : (t.take pos ++ [T.parent x]).getLast? = some (T.parent x) := by simp
          obtain ⟨r, hr, hrs⟩ := forestPos_spec hS (hsubl _ ho') cfg.mpirank hlast'
          rw [hlen', Nat.add_sub_cancel] at hr
          rw [hf, Option.bind_some, show assertO (0 < T.level f) = some () from assertO_true (by omega), Option.bind_some,
            show assertO (t.length - (num - 1) = pos + 1) = some () from assertO_true hnn, Option.bind_some, hset, hr,
            Option.bind_some]
          refine ⟨_, rfl, ⟨?_, ho', ?_, ?_, T.parent x, hlast', ?_⟩, ?_⟩
          · rw [hlen']; exact hnn
          · intro y hy
            rcases List.mem_append.1 hy with hy | hy
            · exact i3 y (List.mem_of_mem_take hy)
            · rw [List.mem_singleton] at hy
              rw [hy]
              exact hP x vx lx (i3 x (List.mem_of_getLast? i5))
          · intro hinc
            rw [← i4 hinc]
            obtain ⟨g1, g2, g3⟩ := hfam hinc
            conv_rhs => rw [← List.take_append_drop pos t, weight_append, g3, weight_children g1 g2]
            simp
          · rcases hrs with h | ⟨pos', h1, h2, h3⟩
            · exact Or.inl h
            · refine Or.inr ⟨?_, h3, pos', h1, h2⟩
              simp only [hfp]
              exact hS.numSiblings _ hg.valid h3
          · simp only [hlast', i5]
            have := T.level_parent x vx lx
            simp only [if_true]
            omega
        · rw [if_neg hans]
          refine ⟨_, rfl, ⟨rfl, i2, i3, i4, x, i5, Or.inr ⟨rfl, lx, pos, rfl, hg⟩⟩, ?_⟩
          simp [i5]

end Adapt
end T8
