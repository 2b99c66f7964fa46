/-
C56: the ghost layer of every process.
-/
import Verif.Props.Ghost
import Verif.Lemmas.GhostReceive

namespace T8.Ghost
open T8.RTree T8.Spec T8.GhostSpec T8.Owner T8.Populate T8.Search T8.Balance
open T8.BalanceSpec (Leaf)

variable {T : Nat → RTree} {C : Codec T} {P K L : Nat} {D : DistForest T P K L} {In : ∀ g, (T g).E → Nat → (T g).E → Nat → Prop}

/-! ### Sending -/

theorem mapM_some {α β : Type} {f : α → Option β} {g : α → β} : ∀ {l : List α}, (∀ a ∈ l, f a = some (g a)) → l.mapM f = some (l.map g)
  | [], _ => rfl
  | a :: l, h => by
    rw [List.mapM_cons, h a (by simp), mapM_some (fun b hb => h b (by simp [hb]))]
    rfl

theorem find_of_nodup {ghosts : List (Remote T)} (hn : (ghosts.map (fun r => r.rank)).Nodup) {r : Remote T} (hr : r ∈ ghosts) :
    ghosts.find? (fun s => decide (s.rank = r.rank)) = some r := by
  induction ghosts with
  | nil => cases hr
  | cons s l ih =>
    rw [List.map_cons, List.nodup_cons] at hn
    rcases List.mem_cons.1 hr with rfl | hr
    · simp
    · have : s.rank ≠ r.rank := fun hc => hn.1 (hc ▸ List.mem_map_of_mem (f := fun r : Remote T => r.rank) hr)
      rw [List.find?_cons_of_neg (by simpa using this)]
      exact ih hn.2 hr

theorem filter_of_nodup {ghosts : List (Remote T)} (hn : (ghosts.map (fun r => r.rank)).Nodup) {r : Remote T} (hr : r ∈ ghosts) :
    ghosts.filter (fun s => decide (s.rank = r.rank)) = [r] := by
  induction ghosts with
  | nil => cases hr
  | cons s l ih =>
    rw [List.map_cons, List.nodup_cons] at hn
    rcases List.mem_cons.1 hr with rfl | hr
    · rw [List.filter_cons_of_pos (by simp)]
      congr 1
      rw [List.filter_eq_nil_iff]
      intro a ha hc
      exact hn.1 (of_decide_eq_true hc ▸ List.mem_map_of_mem (f := fun r : Remote T => r.rank) ha)
    · have : s.rank ≠ r.rank := fun hc => hn.1 (hc ▸ List.mem_map_of_mem (f := fun r : Remote T => r.rank) hr)
      rw [List.filter_cons_of_neg (by simpa using this)]
      exact ih hn.2 hr

theorem sendStart_eq (hC : C.Lawful) {G : Remotes T} (hG : G.Good) :
    sendStart C G = some (G.ghosts.map (fun r => (r.rank, messageOf C r.trees))) := by
  rw [sendStart, hG.processes]
  have : ∀ l : List (Remote T), (∀ r ∈ l, r ∈ G.ghosts) → (l.map (fun r => r.rank)).mapM (fun rank => do
      let r ← G.ghosts.find? (fun r => decide (r.rank = rank))
      let m ← message C r.trees
      return (rank, m)) = some (l.map (fun r => (r.rank, messageOf C r.trees))) := by
    intro l
    induction l with
    | nil => exact fun _ => rfl
    | cons r l ih =>
      intro h
      rw [List.map_cons, List.mapM_cons, ih (fun s hs => h s (by simp [hs])), find_of_nodup hG.nodup (h r (by simp))]
      simp only [Option.bind_eq_bind, Option.bind_some, message_eq hC]
      rfl
  exact this _ (fun _ h => h)

/-! ### The senders of a process -/

theorem tree_le {q r : Nat} (hqr : q < r) (hr : r < P) {x y : Leaf T} (hx : x ∈ D.localLeaves q) (hy : y ∈ D.localLeaves r) : x.1 ≤ y.1 := by
  obtain ⟨i, _, hi, hi'⟩ := (mem_local (by omega)).1 hx
  obtain ⟨j, hj, _, hj'⟩ := (mem_local hr).1 hy
  have hmono : ∀ n, q + 1 + n ≤ P → D.part.off (q + 1) ≤ D.part.off (q + 1 + n) := by
    intro n
    induction n with
    | zero => exact fun _ => le_rfl
    | succ n ih => exact fun h => (ih (by omega)).trans (D.part.mono _ (by omega))
  have := hmono (r - (q + 1)) (by omega)
  rw [show q + 1 + (r - (q + 1)) = r by omega] at this
  rcases seq_rel hi' hj' (by omega) with h | h <;> omega

theorem indexed_leaves (trees : List (LocalTree T)) : (indexed trees).map (fun x => (⟨x.1, x.2.1⟩ : Leaf T)) = procSeq trees := by
  rw [indexed, procSeq, List.map_flatMap]
  congr 1
  funext t
  have : ∀ l : List ((T t.cls).E × Nat), (l.map (Sigma.mk t.cls)).map (fun x : Sent T => (⟨x.1, x.2.1⟩ : Leaf T)) =
      (l.map Prod.fst).map (Sigma.mk t.cls) := by
    intro l
    rw [List.map_map, List.map_map]
    rfl
  rw [this, List.zipIdx_map_fst]

theorem out_seq (trees : List (RemoteTree T)) :
    trees.flatMap RemoteTree.out = (trees.flatMap RemoteTree.seq).map (fun x => (⟨x.1, x.2.1⟩ : Leaf T)) := by
  rw [List.map_flatMap]
  congr 1
  funext t
  rw [RemoteTree.seq, List.map_map]
  rfl

variable {X : Env T}

theorem mustSend_leaves {q : Nat} {trees : List (LocalTree T)} (hst : Stores D q trees) (p : Nat) :
    (mustSend X In D q trees p).map (fun x => (⟨x.1, x.2.1⟩ : Leaf T)) =
      ghostsFrom X.neighbor In (fun g => (X.faces g).numFaces) D p q := by
  rw [mustSend, ghostsFrom, ← hst.leaves, ← indexed_leaves, List.filter_map]
  rfl

/-- All processes have collected the elements that they send, and the messages are not too long. -/
structure Collected (C : Codec T) (In : ∀ g, (T g).E → Nat → (T g).E → Nat → Prop) (D : DistForest T P K L) (X : Env T) (Y : Nat → Env T)
    (trees : Nat → List (LocalTree T)) (G : Nat → Remotes T) : Prop where
  codec : C.Lawful
  setting : ∀ p, p < P → Setting (Y p) In D p
  same : ∀ p, p < P → (Y p).neighbor = X.neighbor ∧ (Y p).faces = X.faces
  stores : ∀ p, p < P → Stores D p (trees p)
  filled : ∀ p, p < P → fillRemoteV3 (Y p) (trees p) = some (G p)
  fits : ∀ p, p < P → ∀ r ∈ (G p).ghosts, Fits C r.trees

variable {Y : Nat → Env T} {trees : Nat → List (LocalTree T)} {G : Nat → Remotes T}

theorem Collected.facts (h : Collected C In D X Y trees G) {q : Nat} (hq : q < P) :
    (G q).Good ∧ (∀ p : Nat, ((G q).sent p).map (fun x => (⟨x.1, x.2.1⟩ : Leaf T)) =
      ghostsFrom X.neighbor In (fun g => (X.faces g).numFaces) D p q) ∧ ∀ p ∈ (G q).processes, 0 ≤ p ∧ p < P := by
  obtain ⟨G', h1, h2, h3, h4⟩ := C55_fill_remote_partial (h.setting q hq) (h.stores q hq)
  rw [h.filled q hq] at h1
  obtain rfl := Option.some.inj h1
  refine ⟨h2, fun p => ?_, h4⟩
  rw [h3, mustSend_leaves (h.stores q hq), (h.same q hq).1, (h.same q hq).2]

/-- What process `q` sends to process `p`. -/
def entries (G : Nat → Remotes T) (p q : Nat) : List (Remote T) := (G q).ghosts.filter (fun r => decide (r.rank = p))

theorem Collected.entry (h : Collected C In D X Y trees G) (p : Nat) {q : Nat} (hq : q < P) :
    (∃ r, entries G p q = [r] ∧ MessageGood C r.trees ∧ (p : Int) ∈ (G q).processes ∧
      r.trees.flatMap RemoteTree.out = ghostsFrom X.neighbor In (fun g => (X.faces g).numFaces) D p q ∧
      ghostsFrom X.neighbor In (fun g => (X.faces g).numFaces) D p q ≠ [] ∧
      ∀ t ∈ r.trees, ∃ x ∈ D.localLeaves q, x.1 = t.gtreeid) ∨
    (entries G p q = [] ∧ (p : Int) ∉ (G q).processes ∧ ghostsFrom X.neighbor In (fun g => (X.faces g).numFaces) D p q = []) := by
  obtain ⟨h1, h2, _⟩ := h.facts hq
  have hm := mem_processes h1 (q := p)
  rw [← h1.processes] at hm
  by_cases hp : (p : Int) ∈ (G q).processes
  · left
    have hp' := hp
    rw [h1.processes] at hp'
    obtain ⟨r, hr, hrank⟩ := List.mem_map.1 hp'
    have hg := h1.remotes r hr
    have hout : r.trees.flatMap RemoteTree.out = ghostsFrom X.neighbor In (fun g => (X.faces g).numFaces) D p q := by
      rw [← h2, ← hrank, Remotes.sent_of_mem h1 hr, out_seq]
      rfl
    have hmem : ∀ t ∈ r.trees, ∀ y ∈ t.elements, (⟨t.gtreeid, y.1⟩ : Leaf T) ∈ D.localLeaves q := by
      intro t ht y hy
      have : (⟨t.gtreeid, y.1⟩ : Leaf T) ∈ r.trees.flatMap RemoteTree.out :=
        List.mem_flatMap.2 ⟨t, ht, List.mem_map.2 ⟨y, hy, rfl⟩⟩
      rw [hout, ghostsFrom] at this
      exact List.mem_of_mem_filter this
    refine ⟨r, ?_, ⟨hg.nonempty, fun t ht => ⟨hg.trees t ht, fun y hy => (leaf_facts hq (hmem t ht y hy)).2.1⟩,
      List.pairwise_map.1 hg.order, h.fits q hq r hr⟩, hp, hout, ?_, ?_⟩
    · rw [entries, ← hrank]
      exact filter_of_nodup h1.nodup hr
    · rw [← h2]
      intro hc
      exact hm.1 hp (List.map_eq_nil_iff.1 hc)
    · intro t ht
      obtain ⟨y, hy⟩ := List.exists_mem_of_ne_nil _ (hg.trees t ht)
      exact ⟨⟨t.gtreeid, y.1⟩, hmem t ht y hy, rfl⟩
  · right
    refine ⟨?_, hp, ?_⟩
    · rw [entries, List.filter_eq_nil_iff]
      intro r hr hc
      refine hp ?_
      rw [h1.processes, ← of_decide_eq_true hc]
      exact List.mem_map_of_mem (f := fun r : Remote T => r.rank) hr
    · rw [← h2, List.map_eq_nil_iff]
      by_contra hc
      exact hp (hm.2 hc)

/-- The processes that send to process `p`, with what they send. -/
def sendersOf (P : Nat) (G : Nat → Remotes T) (p : Nat) : List (Int × List (RemoteTree T)) :=
  (List.range P).flatMap (fun q : Nat => (entries G p q).map (fun r => ((q : Int), r.trees)))

theorem Collected.senders (h : Collected C In D X Y trees G) (p : Nat) : Senders C (sendersOf P G p) where
  ranks := by
    rw [sendersOf, List.pairwise_flatMap]
    refine ⟨fun q hq => ?_, ?_⟩
    · rcases h.entry p (List.mem_range.1 hq) with ⟨r, hr, _⟩ | ⟨hr, _⟩ <;> rw [hr] <;> simp
    · refine (List.pairwise_lt_range (n := P)).imp ?_
      intro a b hab x hx y hy
      obtain ⟨_, _, rfl⟩ := List.mem_map.1 hx
      obtain ⟨_, _, rfl⟩ := List.mem_map.1 hy
      show (a : Int) < b
      omega
  good := by
    intro x hx
    obtain ⟨q, hq, hx⟩ := List.mem_flatMap.1 hx
    obtain ⟨s, hs, rfl⟩ := List.mem_map.1 hx
    rcases h.entry p (List.mem_range.1 hq) with ⟨r, hr, hg, _⟩ | ⟨hr, _⟩
    · rw [hr, List.mem_singleton] at hs
      rw [hs]
      exact hg
    · rw [hr] at hs
      cases hs
  order := by
    rw [sendersOf, List.pairwise_flatMap]
    refine ⟨fun q hq => ?_, ?_⟩
    · rcases h.entry p (List.mem_range.1 hq) with ⟨r, hr, _⟩ | ⟨hr, _⟩ <;> rw [hr] <;> simp
    · refine (List.pairwise_lt_range (n := P)).imp_of_mem ?_
      intro a b ha hb hab x hx y hy t ht u hu
      obtain ⟨s, hs, rfl⟩ := List.mem_map.1 hx
      obtain ⟨s', hs', rfl⟩ := List.mem_map.1 hy
      have key : ∀ q, q < P → ∀ s ∈ entries G p q, ∀ t ∈ s.trees, ∃ x ∈ D.localLeaves q, x.1 = t.gtreeid := by
        intro q hq s hs
        rcases h.entry p hq with ⟨r, hr, _, _, _, _, hx⟩ | ⟨hr, _⟩
        · rw [hr, List.mem_singleton] at hs
          rw [hs]
          exact hx
        · rw [hr] at hs
          cases hs
      obtain ⟨x, hx, hxt⟩ := key a (List.mem_range.1 ha) s hs t ht
      obtain ⟨y, hy, hyu⟩ := key b (List.mem_range.1 hb) s' hs' u hu
      rw [← hxt, ← hyu]
      exact tree_le hab (List.mem_range.1 hb) hx hy

theorem Collected.parts (h : Collected C In D X Y trees G) (p : Nat) : partsOf (sendersOf P G p) =
    (ghostOwners X.neighbor In (fun g => (X.faces g).numFaces) D p).map (fun q : Nat =>
      ((q : Int), ghostsFrom X.neighbor In (fun g => (X.faces g).numFaces) D p q)) := by
  classical
  rw [partsOf, sendersOf, List.map_flatMap, ghostOwners]
  have key : ∀ l : List Nat, (∀ q ∈ l, q < P) → (l.flatMap fun q => ((entries G p q).map (fun r => ((q : Int), r.trees))).map
      (fun p => (p.1, p.2.flatMap RemoteTree.out))) =
      (l.filter (fun q => decide (ghostsFrom X.neighbor In (fun g => (X.faces g).numFaces) D p q ≠ []))).map (fun q : Nat =>
      ((q : Int), ghostsFrom X.neighbor In (fun g => (X.faces g).numFaces) D p q)) := by
    intro l
    induction l with
    | nil => exact fun _ => rfl
    | cons q l ih =>
      intro hl
      rw [List.flatMap_cons, ih (fun a ha => hl a (by simp [ha]))]
      rcases h.entry p (hl q (by simp)) with ⟨r, hr, _, _, ho, hne, _⟩ | ⟨hr, _, he⟩
      · rw [List.filter_cons_of_pos (by simpa using hne), hr]
        simp only [List.map_cons, List.map_nil, ho, List.cons_append, List.nil_append]
      · rw [List.filter_cons_of_neg (by simp [he]), hr]
        rfl
  rw [key _ (fun q hq => List.mem_range.1 hq)]

theorem Collected.processes (h : Collected C In D X Y trees G) {p : Nat} (hp : p < P) :
    (G p).processes.Perm ((sendersOf P G p).map Prod.fst) := by
  obtain ⟨h1, _, h3⟩ := h.facts hp
  rw [List.perm_ext_iff_of_nodup (by rw [h1.processes]; exact h1.nodup) (by
    rw [List.Nodup, List.pairwise_map]
    exact (h.senders p).ranks.imp fun h => Int.ne_of_lt h)]
  intro a
  have key : ∀ q : Nat, q < P → ((q : Int) ∈ (sendersOf P G p).map Prod.fst ↔ (p : Int) ∈ (G q).processes) := by
    intro q hq
    constructor
    · intro hm
      obtain ⟨x, hx, hxq⟩ := List.mem_map.1 hm
      obtain ⟨q', _, hx⟩ := List.mem_flatMap.1 hx
      obtain ⟨r, hr, rfl⟩ := List.mem_map.1 hx
      obtain rfl : q' = q := Int.ofNat_inj.1 hxq
      rcases h.entry p hq with ⟨_, _, _, hmem, _⟩ | ⟨hnil, _⟩
      · exact hmem
      · rw [hnil] at hr
        cases hr
    · intro hm
      rcases h.entry p hq with ⟨r, hr, _⟩ | ⟨_, hno, _⟩
      · exact List.mem_map.2 ⟨((q : Int), r.trees), List.mem_flatMap.2 ⟨q, List.mem_range.2 hq, List.mem_map.2 ⟨r, by rw [hr]; simp, rfl⟩⟩, rfl⟩
      · exact absurd hm hno
  constructor
  · intro ha
    obtain ⟨b1, b2⟩ := h3 a ha
    obtain ⟨q, rfl⟩ := Int.eq_ofNat_of_zero_le b1
    have hq : q < P := by omega
    rw [key q hq]
    exact (C55_processes_partial h.setting h.same h.stores h.filled hp hq).1 ha
  · intro ha
    obtain ⟨x, hx, hxa⟩ := List.mem_map.1 ha
    obtain ⟨q, hq, hx'⟩ := List.mem_flatMap.1 hx
    obtain ⟨r, _, rfl⟩ := List.mem_map.1 hx'
    have hq : q < P := List.mem_range.1 hq
    subst hxa
    exact (C55_processes_partial h.setting h.same h.stores h.filled hp hq).2 ((key q hq).1 ha)

/-- **C56** (for the ghost algorithm with version 3): all messages can be written, and if the messages for a process arrive, in any order,
then its ghost layer has exactly the leaves of other processes that share a face with one of its leaves, in the order of the processes and of
the leaves. The ghost trees are sorted and found by their numbers, the offsets of trees and processes are right, and the array of the
processes is sorted and has exactly those that have such leaves. -/
theorem C56_ghost_layer_partial (h : Collected C In D X Y trees G) : ∃ msgs : Nat → List (Int × List UInt8),
    (∀ q, q < P → sendStart C (G q) = some (msgs q)) ∧ ∀ p, p < P → ∀ arrivals, arrivals.Perm (delivered P msgs p) →
    ∃ layer, receive C (G p) arrivals = some (layer, ⟨(G p).ghosts,
        (ghostOwners X.neighbor In (fun g => (X.faces g).numFaces) D p).map Int.ofNat⟩) ∧
      layer.Holds C ((ghostOwners X.neighbor In (fun g => (X.faces g).numFaces) D p).map (fun q : Nat =>
        ((q : Int), ghostsFrom X.neighbor In (fun g => (X.faces g).numFaces) D p q))) := by
  refine ⟨fun q => (G q).ghosts.map (fun r => (r.rank, messageOf C r.trees)), fun q hq => sendStart_eq h.codec (h.facts hq).1, ?_⟩
  intro p hp arrivals harr
  have hdel : delivered P (fun q => (G q).ghosts.map (fun r => (r.rank, messageOf C r.trees))) p =
      (sendersOf P G p).map (fun x => (x.1, messageOf C x.2)) := by
    rw [delivered, sendersOf, List.map_flatMap]
    congr 1
    funext q
    rw [List.filter_map, List.map_map, List.map_map, entries]
    rfl
  rw [hdel] at harr
  obtain ⟨layer, a1, a2⟩ := receive_spec h.codec (h.senders p) (h.processes hp) harr
  rw [h.parts] at a2
  refine ⟨layer, ?_, a2⟩
  rw [a1]
  have := congrArg (List.map Prod.fst) (h.parts p)
  rw [partsOf, List.map_map, List.map_map] at this
  have h' : (sendersOf P G p).map Prod.fst = (ghostOwners X.neighbor In (fun g => (X.faces g).numFaces) D p).map Int.ofNat := this
  rw [h']

end T8.Ghost
