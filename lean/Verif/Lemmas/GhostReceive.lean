/-
The ghost layer after all messages have arrived, in any order.
-/
import Verif.Lemmas.GhostLayer

namespace T8.Ghost
open T8.RTree
open T8.BalanceSpec (Leaf)

variable {T : Nat → RTree} {C : Codec T}

theorem perm_map {α β : Type} {f : α → β} {l m : List β} (h : l.Perm m) : ∀ {R : List α}, m = R.map f →
    ∃ R' : List α, R'.Perm R ∧ l = R'.map f := by
  induction h with
  | nil => exact fun {R} h => ⟨R, List.Perm.refl _, h⟩
  | cons x _ ih =>
    intro R hR
    obtain ⟨a, R, rfl, rfl, rfl⟩ := List.map_eq_cons_iff.1 hR.symm
    obtain ⟨R', h1, rfl⟩ := ih rfl
    exact ⟨a :: R', h1.cons a, rfl⟩
  | swap x y l =>
    intro R hR
    obtain ⟨a, R, rfl, rfl, hR'⟩ := List.map_eq_cons_iff.1 hR.symm
    obtain ⟨b, R, rfl, rfl, rfl⟩ := List.map_eq_cons_iff.1 hR'
    exact ⟨b :: a :: R, List.Perm.swap _ _ _, rfl⟩
  | trans _ _ ih1 ih2 =>
    intro R hR
    obtain ⟨R1, h1, h2⟩ := ih2 hR
    obtain ⟨R2, h3, h4⟩ := ih1 h2
    exact ⟨R2, h3.trans h1, h4⟩

theorem parseReceived_step {remotes : List Int} {fuel : Nat} {s : RecvState T} {buffer : List UInt8} {rank : Int} {layer : Layer T} {offset : Nat}
    (hb : s.buffers[s.parsed]? = some (some buffer)) (hr : remotes[s.parsed]? = some rank)
    (hm : parseMessage C s.layer s.currentOffset rank buffer = some (layer, offset)) :
    parseReceived C remotes (fuel + 1) s =
      parseReceived C remotes fuel { s with parsed := s.parsed + 1, layer := layer, currentOffset := offset } := by
  rw [parseReceived, hb]
  generalize parseMessage C = f at hm ⊢
  simp only [hr, hm, Option.bind_eq_bind, Option.bind_some]

/-- The processes that send a message, sorted, with what they send. -/
structure Senders (C : Codec T) (R : List (Int × List (RemoteTree T))) : Prop where
  ranks : R.Pairwise (fun a b => a.1 < b.1)
  good : ∀ p ∈ R, MessageGood C p.2
  order : R.Pairwise (fun a b => ∀ t ∈ a.2, ∀ u ∈ b.2, t.gtreeid ≤ u.gtreeid)

/-- The leaves that they send. -/
def partsOf (R : List (Int × List (RemoteTree T))) : List (Int × List (Leaf T)) :=
  R.map (fun p => (p.1, p.2.flatMap RemoteTree.out))

/-- The messages of the processes `A` have arrived, and those of the first processes are parsed. -/
structure RecvInv (C : Codec T) (R : List (Int × List (RemoteTree T))) (A : List Int) (s : RecvState T) : Prop where
  buffers : s.buffers = R.map (fun p => if p.1 ∈ A then some (messageOf C p.2) else none)
  parsed : s.parsed ≤ R.length
  before : ∀ p ∈ R.take s.parsed, p.1 ∈ A
  holds : s.layer.Holds C (partsOf (R.take s.parsed))
  offset : s.currentOffset = s.layer.seq.length

theorem parseReceived_spec (hC : C.Lawful) {R : List (Int × List (RemoteTree T))} (hR : Senders C R) {A : List Int} :
    ∀ (fuel : Nat) (s : RecvState T), R.length - s.parsed ≤ fuel → RecvInv C R A s →
    ∃ s', parseReceived C (R.map Prod.fst) fuel s = some s' ∧ RecvInv C R A s' ∧ ∀ p, R[s'.parsed]? = some p → p.1 ∉ A := by
  intro fuel
  induction fuel with
  | zero =>
    intro s hf hs
    refine ⟨s, rfl, hs, ?_⟩
    intro p hp
    rw [List.getElem?_eq_none (by omega)] at hp
    cases hp
  | succ fuel ih =>
    intro s hf hs
    cases hp : R[s.parsed]? with
    | none =>
      have : s.buffers[s.parsed]? = none := by rw [hs.buffers, List.getElem?_map, hp]; rfl
      rw [parseReceived, this]
      exact ⟨s, rfl, hs, by rw [hp]; simp⟩
    | some p =>
      have hlt : s.parsed < R.length := by
        by_contra hc
        rw [List.getElem?_eq_none (by omega)] at hp
        cases hp
      by_cases hA : p.1 ∈ A
      · have hb : s.buffers[s.parsed]? = some (some (messageOf C p.2)) := by
          rw [hs.buffers, List.getElem?_map, hp, Option.map_some, if_pos hA]
        have hr : (R.map Prod.fst)[s.parsed]? = some p.1 := by rw [List.getElem?_map, hp]; rfl
        have hsplit : R.take (s.parsed + 1) = R.take s.parsed ++ [p] := by
          rw [List.take_succ, hp]
          rfl
        have hpw : ∀ q ∈ R.take s.parsed, q.1 < p.1 ∧ ∀ t ∈ q.2, ∀ u ∈ p.2, t.gtreeid ≤ u.gtreeid := by
          have h1 := hR.ranks.sublist (List.take_sublist (s.parsed + 1) R)
          have h2 := hR.order.sublist (List.take_sublist (s.parsed + 1) R)
          rw [hsplit, List.pairwise_append] at h1 h2
          exact fun q hq => ⟨h1.2.2 q hq p (by simp), h2.2.2 q hq p (by simp)⟩
        obtain ⟨L', a1, a2⟩ := parse_holds hC (hR.good p (List.mem_of_getElem? hp)) hs.holds (rank := p.1) (by
          intro part hpart x hx t ht
          obtain ⟨q, hq, rfl⟩ := List.mem_map.1 hpart
          obtain ⟨u, hu, hxu⟩ := List.mem_flatMap.1 hx
          rw [RemoteTree.mem_out hxu]
          exact (hpw q hq).2 u hu t ht) (by
          intro part hpart
          obtain ⟨q, hq, rfl⟩ := List.mem_map.1 hpart
          exact (hpw q hq).1.ne)
        obtain ⟨s', b1, b2, b3⟩ := ih { s with parsed := s.parsed + 1, layer := L', currentOffset := L'.seq.length } (by simp only; omega) {
          buffers := hs.buffers
          parsed := hlt
          before := by
            intro q hq
            replace hq : q ∈ R.take (s.parsed + 1) := hq
            rw [hsplit] at hq
            rcases List.mem_append.1 hq with hq | hq
            · exact hs.before q hq
            · rw [List.mem_singleton.1 hq]; exact hA
          holds := by
            show L'.Holds C (partsOf (R.take (s.parsed + 1)))
            rw [hsplit, partsOf, List.map_append]
            exact a2
          offset := rfl }
        refine ⟨s', ?_, b2, b3⟩
        rw [← hs.offset] at a1
        rw [parseReceived_step hb hr a1]
        exact b1
      · have hb : s.buffers[s.parsed]? = some none := by
          rw [hs.buffers, List.getElem?_map, hp, Option.map_some, if_neg hA]
        rw [parseReceived, hb]
        refine ⟨s, rfl, hs, ?_⟩
        intro q hq
        rw [hp] at hq
        rw [← Option.some.inj hq]
        exact hA

theorem arrive_spec (hC : C.Lawful) {R : List (Int × List (RemoteTree T))} (hR : Senders C R) {A : List Int} {s : RecvState T}
    (hs : RecvInv C R A s) {p : Int × List (RemoteTree T)} (hp : p ∈ R) (hA : p.1 ∉ A) :
    ∃ s', arrive C (R.map Prod.fst) s (p.1, messageOf C p.2) = some s' ∧ RecvInv C R (p.1 :: A) s' ∧
      ∀ q, R[s'.parsed]? = some q → q.1 ∉ p.1 :: A := by
  obtain ⟨i, hi⟩ := List.getElem?_of_mem hp
  have hlt : i < R.length := by
    by_contra hc
    rw [List.getElem?_eq_none (by omega)] at hi
    cases hi
  have hget : R[i] = p := by rwa [List.getElem?_eq_getElem hlt, Option.some.injEq] at hi
  have hne : ∀ j (hj : j < R.length), j ≠ i → R[j].1 ≠ p.1 := by
    intro j hj hji
    have := List.pairwise_iff_getElem.1 hR.ranks
    rcases Nat.lt_or_gt_of_ne hji with h | h
    · have := this j i hj hlt h
      rw [hget] at this
      omega
    · have := this i j hlt hj h
      rw [hget] at this
      omega
  have hfind : (R.map Prod.fst).findIdx? (fun r => decide (r = p.1)) = some i := by
    rw [List.findIdx?_eq_some_iff_getElem]
    refine ⟨by simpa using hlt, by simp [hget], ?_⟩
    intro j hj
    simp only [List.getElem_map, decide_eq_true_eq]
    exact hne j (by omega) (by omega)
  have hbuf : s.buffers[i]? = some none := by
    rw [hs.buffers, List.getElem?_map, hi, Option.map_some, if_neg hA]
  have hle : s.parsed ≤ i := by
    by_contra hc
    refine hA (hs.before p ?_)
    rw [List.mem_iff_getElem?]
    exact ⟨i, by rw [List.getElem?_take_of_lt (by omega), hi]⟩
  obtain ⟨s', b1, b2, b3⟩ := parseReceived_spec hC hR (A := p.1 :: A) R.length { s with buffers := s.buffers.set i (some (messageOf C p.2)) }
    (by omega) {
      buffers := by
        show s.buffers.set i _ = _
        apply List.ext_getElem?
        intro j
        rw [hs.buffers, List.getElem?_map]
        by_cases hj : i = j
        · subst hj
          rw [List.getElem?_set_self (by simpa using hlt), hi]
          simp
        · rw [List.getElem?_set_ne hj, List.getElem?_map]
          cases hRj : R[j]? with
          | none => rfl
          | some q =>
            have hjl : j < R.length := by
              by_contra hc
              rw [List.getElem?_eq_none (by omega)] at hRj
              cases hRj
            have : q.1 ≠ p.1 := by
              rw [List.getElem?_eq_getElem hjl, Option.some.injEq] at hRj
              rw [← hRj]
              exact hne j hjl (by omega)
            simp only [Option.map_some, List.mem_cons, this, false_or]
      parsed := hs.parsed
      before := fun q hq => List.mem_cons_of_mem _ (hs.before q hq)
      holds := hs.holds
      offset := hs.offset }
  refine ⟨s', ?_, b2, b3⟩
  rw [arrive]
  simp only [hfind, Option.bind_eq_bind, Option.bind_some]
  rw [assertO_true hbuf, Option.bind_some, assertO_true hle, Option.bind_some, List.length_map]
  exact b1

theorem arrivals_spec (hC : C.Lawful) {R : List (Int × List (RemoteTree T))} (hR : Senders C R) :
    ∀ (arr : List (Int × List (RemoteTree T))) (A : List Int) (s : RecvState T), RecvInv C R A s → (∀ p ∈ arr, p ∈ R ∧ p.1 ∉ A) →
    (arr.map Prod.fst).Nodup → (∀ q, R[s.parsed]? = some q → q.1 ∉ A) →
    ∃ s', (arr.map (fun p => (p.1, messageOf C p.2))).foldlM (arrive C (R.map Prod.fst)) s = some s' ∧
      RecvInv C R ((arr.map Prod.fst).reverse ++ A) s' ∧ ∀ q, R[s'.parsed]? = some q → q.1 ∉ (arr.map Prod.fst).reverse ++ A := by
  intro arr
  induction arr with
  | nil => exact fun A s hs _ _ hn => ⟨s, rfl, hs, hn⟩
  | cons p arr ih =>
    intro A s hs harr hnd hn
    rw [List.map_cons, List.nodup_cons] at hnd
    obtain ⟨s1, a1, a2, a3⟩ := arrive_spec hC hR hs (harr p (by simp)).1 (harr p (by simp)).2
    obtain ⟨s', b1, b2, b3⟩ := ih (p.1 :: A) s1 a2 (fun q hq => ⟨(harr q (by simp [hq])).1, by
      rw [List.mem_cons, not_or]
      exact ⟨fun hc => hnd.1 (hc ▸ List.mem_map_of_mem (f := Prod.fst) hq), (harr q (by simp [hq])).2⟩⟩) hnd.2 a3
    rw [List.map_cons, List.foldlM_cons, a1]
    refine ⟨s', b1, ?_, ?_⟩
    · rw [List.map_cons, List.reverse_cons, List.append_assoc]
      exact b2
    · rw [List.map_cons, List.reverse_cons, List.append_assoc]
      exact b3

theorem receive_spec (hC : C.Lawful) {R : List (Int × List (RemoteTree T))} (hR : Senders C R) {G : Remotes T}
    (hG : G.processes.Perm (R.map Prod.fst)) {arrivals : List (Int × List UInt8)}
    (harr : arrivals.Perm (R.map (fun p => (p.1, messageOf C p.2)))) :
    ∃ L, receive C G arrivals = some (L, { G with processes := R.map Prod.fst }) ∧ L.Holds C (partsOf R) := by
  rw [receive]
  have hlen : G.processes.length = R.length := by rw [hG.length_eq, List.length_map]
  by_cases h0 : G.processes.length = 0
  · rw [if_pos h0]
    obtain rfl : R = [] := List.length_eq_zero_iff.1 (by omega)
    obtain ⟨ghosts, procs⟩ := G
    obtain rfl : procs = [] := List.length_eq_zero_iff.1 h0
    exact ⟨_, rfl, Layer.holds_nil⟩
  · rw [if_neg h0]
    have hsort : G.processes.mergeSort (fun a b => decide (a ≤ b)) = R.map Prod.fst := by
      have hs : (R.map Prod.fst).Pairwise (fun a b : Int => a ≤ b) := by
        rw [List.pairwise_map]
        exact hR.ranks.imp fun h => Int.le_of_lt h
      have h1 : (G.processes.mergeSort (fun a b => decide (a ≤ b))).Pairwise (fun a b : Int => a ≤ b) := by
        have := List.pairwise_mergeSort (le := fun a b : Int => decide (a ≤ b)) (fun a b c h1 h2 => by
          simp only [decide_eq_true_eq] at h1 h2 ⊢; omega) (fun a b => by
          simp only [Bool.or_eq_true, decide_eq_true_eq]; omega) G.processes
        exact this.imp fun h => of_decide_eq_true h
      exact ((List.mergeSort_perm _ _).trans hG).eq_of_pairwise (fun a b _ _ h1 h2 => by omega) h1 hs
    simp only [hsort, Option.bind_eq_bind, List.length_map]
    have hal : arrivals.length = R.length := by rw [harr.length_eq, List.length_map]
    rw [assertO_true (by omega), Option.bind_some, List.take_of_length_le (by omega)]
    obtain ⟨arr, harr1, harr2⟩ : ∃ arr : List (Int × List (RemoteTree T)), arr.Perm R ∧ arrivals = arr.map (fun p => (p.1, messageOf C p.2)) := by
      exact perm_map harr rfl
    subst harr2
    have hnd : (arr.map Prod.fst).Nodup := by
      refine (harr1.map Prod.fst).nodup_iff.2 ?_
      rw [List.Nodup, List.pairwise_map]
      exact hR.ranks.imp fun h => Int.ne_of_lt h
    obtain ⟨s, a1, a2, a3⟩ := arrivals_spec hC hR arr [] ⟨List.replicate R.length none, 0, ⟨[], [], [], 0⟩, 0⟩ {
      buffers := by
        show List.replicate R.length none = _
        simp [List.map_const']
      parsed := Nat.zero_le _
      before := by simp
      holds := Layer.holds_nil
      offset := rfl } (fun p hp => ⟨harr1.mem_iff.1 hp, by simp⟩) hnd (by simp)
    rw [a1, Option.bind_some]
    have hpar : s.parsed = R.length := by
      by_contra hc
      have hlt : s.parsed < R.length := by have := a2.parsed; omega
      refine a3 _ (List.getElem?_eq_getElem hlt) ?_
      rw [List.append_nil, List.mem_reverse]
      exact List.mem_map_of_mem (harr1.mem_iff.2 (List.getElem_mem hlt))
    rw [assertO_true hpar, Option.bind_some]
    have hh := a2.holds
    rw [hpar, List.take_length] at hh
    exact ⟨_, rfl, hh⟩

end T8.Ghost
