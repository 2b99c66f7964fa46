/-
The ghost trees after a message was read.
-/
import Verif.Lemmas.GhostMessage

namespace T8.Ghost
open T8.RTree
open T8.BalanceSpec (Leaf)

variable {T : Nat → RTree} {C : Codec T}

def GhostTree.seq (t : GhostTree T) : List (Leaf T) := t.elements.map (Sigma.mk t.gtreeid)

/-- The ghosts in the order in which they are stored. -/
def Layer.seq (L : Layer T) : List (Leaf T) := L.trees.flatMap GhostTree.seq

/-- The ghost with number `pos` is the element `j` of the ghost tree `i`. -/
def Layer.At (L : Layer T) (i j pos : Nat) : Prop := ∃ t, L.trees[i]? = some t ∧ j < t.elements.length ∧ t.offset + j = pos

/-- The ghost trees are sorted and not empty, the hash table finds them, their offsets are the numbers of the ghosts in the trees before them,
and their classes are right. -/
structure Layer.Good (C : Codec T) (L : Layer T) : Prop where
  hash : L.treeHash = L.trees.zipIdx.map (fun x => (x.1.gtreeid, x.2))
  ids : L.trees.Pairwise (fun s t => s.gtreeid < t.gtreeid)
  nonempty : ∀ t ∈ L.trees, t.elements ≠ []
  eclass : ∀ t ∈ L.trees, t.eclass = C.eclass t.gtreeid
  offsets : ∀ i t, L.trees[i]? = some t → t.offset = ((L.trees.take i).flatMap GhostTree.seq).length
  count : L.numGhosts = L.seq.length

/-- The leaves of a tree that is sent. -/
def RemoteTree.out (t : RemoteTree T) : List (Leaf T) := t.elements.map (fun x => ⟨t.gtreeid, x.1⟩)

theorem find_none {l : List (GhostTree T)} {g : Nat} (h : ∀ t ∈ l, t.gtreeid < g) (k : Nat) :
    ((l.zipIdx k).map (fun x => (x.1.gtreeid, x.2))).find? (fun e => decide (e.1 = g)) = none := by
  rw [List.find?_eq_none]
  intro e he
  obtain ⟨x, hx, rfl⟩ := List.mem_map.1 he
  have := h x.1 (List.fst_mem_of_mem_zipIdx hx)
  simp only [decide_eq_true_eq]
  omega

theorem find_last {l : List (GhostTree T)} {g : Nat} (h : ∀ t ∈ l, t.gtreeid < g) (u : GhostTree T) (hu : u.gtreeid = g) :
    (((l ++ [u]).zipIdx).map (fun x => (x.1.gtreeid, x.2))).find? (fun e => decide (e.1 = g)) = some (g, l.length) := by
  rw [List.zipIdx_append, List.map_append, List.find?_append, find_none h]
  simp [hu]

theorem insertElements_new {L : Layer T} {offset g ec n : Nat} {bytes : List UInt8}
    (h : L.treeHash.find? (fun e => decide (e.1 = g)) = none) :
    insertElements C L offset g ec n bytes = some ({ L with
      trees := L.trees ++ [⟨g, ec, offset, decodeElements C g (C.size ec) n bytes⟩],
      treeHash := L.treeHash ++ [(g, L.trees.length)] }, L.trees.length, 0) := by
  rw [insertElements, h]

theorem insertElements_old {L : Layer T} {offset n k : Nat} {bytes : List UInt8} {t : GhostTree T}
    (h : L.treeHash.find? (fun e => decide (e.1 = t.gtreeid)) = some (t.gtreeid, k)) (hk : L.trees[k]? = some t) :
    insertElements C L offset t.gtreeid t.eclass n bytes = some ({ L with
      trees := L.trees.set k { t with elements := t.elements ++ decodeElements C t.gtreeid (C.size t.eclass) n bytes } }, k,
        t.elements.length) := by
  rw [insertElements, h]
  simp only [hk, Option.bind_eq_bind, Option.bind_some, assertO_true]
  rfl

theorem offsets_append {l : List (GhostTree T)} (h : ∀ (i : Nat) (t : GhostTree T), l[i]? = some t →
    t.offset = ((l.take i).flatMap GhostTree.seq).length) {u : GhostTree T} (hu : u.offset = (l.flatMap GhostTree.seq).length) :
    ∀ (i : Nat) (t : GhostTree T), (l ++ [u])[i]? = some t → t.offset = (((l ++ [u]).take i).flatMap GhostTree.seq).length := by
  intro i t ht
  rcases Nat.lt_or_ge i l.length with hi | hi
  · rw [List.getElem?_append_left hi] at ht
    rw [List.take_append_of_le_length (by omega)]
    exact h i t ht
  · rw [List.getElem?_append_right hi] at ht
    obtain hi' : i = l.length := by
      by_contra hc
      rw [List.getElem?_eq_none (by simp; omega)] at ht
      cases ht
    subst hi'
    simp only [Nat.sub_self, List.getElem?_cons_zero, Option.some.injEq] at ht
    subst ht
    rw [List.take_append_of_le_length (by omega), List.take_length, hu]

theorem insertTree_spec (hC : C.Lawful) {L : Layer T} (hL : L.Good C) {t : RemoteTree T} (ht : t.elements ≠ [])
    (hval : ∀ x ∈ t.elements, (T t.gtreeid).Valid x.1) (hle : ∀ u ∈ L.trees, u.gtreeid ≤ t.gtreeid) :
    ∃ L' i j, insertTree C L L.seq.length t = some (L', i, j) ∧ L'.Good C ∧ L'.seq = L.seq ++ t.out ∧
      L'.processOffsets = L.processOffsets ∧ (∀ u ∈ L'.trees, u.gtreeid ≤ t.gtreeid) ∧ L'.At i j L.seq.length ∧
      ∀ i j pos, L.At i j pos → L'.At i j pos := by
  obtain ⟨trees, hash, procs, num⟩ := L
  obtain ⟨g, elements⟩ := t
  have hdec := decodeElements_eq hC g elements hval
  obtain ⟨h1, h2, h3, h4, h5, h6⟩ := hL
  simp only at h1 h2 h3 h4 h5 h6 hle ht
  subst h1
  have hlen : 0 < elements.length := List.length_pos_iff.2 ht
  by_cases hlast : ∃ ts u, trees = ts ++ [u] ∧ u.gtreeid = g
  · obtain ⟨ts, ⟨g', ec, off, els⟩, hts, hug⟩ := hlast
    obtain rfl : g' = g := hug
    subst hts
    have hlt : ∀ t ∈ ts, t.gtreeid < g' := by
      intro t htm
      rw [List.pairwise_append] at h2
      exact h2.2.2 t htm ⟨g', ec, off, els⟩ (by simp)
    have hec : ec = C.eclass g' := h4 ⟨g', ec, off, els⟩ (by simp)
    subst hec
    have hoff : off = (ts.flatMap GhostTree.seq).length := by
      have := h5 ts.length ⟨g', C.eclass g', off, els⟩ (by simp)
      rwa [List.take_append_of_le_length (by omega), List.take_length] at this
    have hout : ∀ l : List (T g').E, GhostTree.seq ⟨g', C.eclass g', off, l⟩ = l.map (Sigma.mk g') := fun _ => rfl
    have hseq : ((ts ++ [(⟨g', C.eclass g', off, els⟩ : GhostTree T)]).flatMap GhostTree.seq).length = off + els.length := by
      rw [List.flatMap_append, List.length_append, ← hoff, List.flatMap_cons, List.flatMap_nil, List.append_nil, hout, List.length_map]
    refine ⟨_, _, _, insertElements_old (t := ⟨g', _, off, els⟩) (find_last hlt _ rfl) (by simp), ?_⟩
    simp only [elementBytes] at hdec ⊢
    rw [hdec]
    rw [List.set_append_right _ _ (by omega), Nat.sub_self, List.set_cons_zero]
    refine ⟨⟨?_, ?_, ?_, ?_, ?_, ?_⟩, ?_, trivial, ?_, ?_, ?_⟩
    · show _ = ((ts ++ [_]).zipIdx).map _
      rw [List.zipIdx_append, List.zipIdx_append, List.map_append, List.map_append]
      rfl
    · show (ts ++ [_]).Pairwise _
      rw [List.pairwise_append] at h2 ⊢
      refine ⟨h2.1, by simp, ?_⟩
      intro a ha b hb
      rw [List.mem_singleton.1 hb]
      exact hlt a ha
    · intro u hu
      replace hu : u ∈ ts ++ [_] := hu
      rcases List.mem_append.1 hu with hu | hu
      · exact h3 u (by simp [hu])
      · rw [List.mem_singleton.1 hu]
        simp [ht]
    · intro u hu
      replace hu : u ∈ ts ++ [_] := hu
      rcases List.mem_append.1 hu with hu | hu
      · exact h4 u (by simp [hu])
      · rw [List.mem_singleton.1 hu]
    · refine offsets_append (fun i t hi => ?_) hoff
      have hi' : i < ts.length := by
        by_contra hc
        rw [List.getElem?_eq_none (by omega)] at hi
        cases hi
      have := h5 i t (by rw [List.getElem?_append_left hi', hi])
      rwa [List.take_append_of_le_length (by omega)] at this
    · show num + elements.length = ((ts ++ [_]).flatMap GhostTree.seq).length
      rw [h6]
      show ((ts ++ [_]).flatMap GhostTree.seq).length + _ = _
      rw [hseq, List.flatMap_append, List.length_append, ← hoff, List.flatMap_cons, List.flatMap_nil, List.append_nil, hout,
        List.length_map, List.length_append, List.length_map]
      omega
    · show (ts ++ [_]).flatMap GhostTree.seq = (ts ++ [_]).flatMap GhostTree.seq ++ _
      rw [List.flatMap_append, List.flatMap_append, List.flatMap_cons, List.flatMap_nil, List.flatMap_cons, List.flatMap_nil,
        hout, hout, List.map_append, List.map_map]
      simp only [List.append_nil, List.append_assoc]
      rfl
    · intro u hu
      replace hu : u ∈ ts ++ [_] := hu
      rcases List.mem_append.1 hu with hu | hu
      · exact (hlt u hu).le
      · rw [List.mem_singleton.1 hu]
    · refine ⟨⟨g', C.eclass g', off, els ++ elements.map Prod.fst⟩, by show (ts ++ [_])[ts.length]? = _; simp, ?_, ?_⟩
      · show els.length < (els ++ _).length
        rw [List.length_append, List.length_map]
        omega
      · show off + els.length = ((ts ++ [_]).flatMap GhostTree.seq).length
        rw [hseq]
    · rintro i j pos ⟨t, a1, a2, a3⟩
      replace a1 : (ts ++ [_])[i]? = some t := a1
      rcases Nat.lt_or_ge i ts.length with hi | hi
      · refine ⟨t, ?_, a2, a3⟩
        show (ts ++ [_])[i]? = some t
        rw [List.getElem?_append_left hi] at a1 ⊢
        exact a1
      · rw [List.getElem?_append_right hi] at a1
        obtain rfl : i = ts.length := by
          by_contra hc
          rw [List.getElem?_eq_none (by simp; omega)] at a1
          cases a1
        simp only [Nat.sub_self, List.getElem?_cons_zero, Option.some.injEq] at a1
        subst a1
        refine ⟨⟨g', C.eclass g', off, els ++ elements.map Prod.fst⟩, by show (ts ++ [_])[ts.length]? = _; simp, ?_, a3⟩
        show j < (els ++ _).length
        rw [List.length_append]
        exact Nat.lt_add_right _ a2
  · have hlt : ∀ t ∈ trees, t.gtreeid < g := by
      intro t htm
      rcases Nat.lt_or_ge t.gtreeid g with h | h
      · exact h
      · exfalso
        obtain ⟨ts, u, rfl⟩ : ∃ ts u, trees = ts ++ [u] := ⟨_, _, (List.dropLast_append_getLast (List.ne_nil_of_mem htm)).symm⟩
        refine hlast ⟨ts, u, rfl, ?_⟩
        have hu := hle u (by simp)
        rw [List.pairwise_append] at h2
        rcases List.mem_append.1 htm with hm | hm
        · have := h2.2.2 t hm u (by simp)
          omega
        · rw [List.mem_singleton.1 hm] at h
          omega
    have hout : ∀ l : List (T g).E, GhostTree.seq ⟨g, C.eclass g, (trees.flatMap GhostTree.seq).length, l⟩ = l.map (Sigma.mk g) := fun _ => rfl
    refine ⟨_, _, _, insertElements_new (find_none hlt 0), ?_⟩
    simp only [elementBytes] at hdec ⊢
    rw [hdec]
    refine ⟨⟨?_, ?_, ?_, ?_, ?_, ?_⟩, ?_, trivial, ?_, ?_, ?_⟩
    · show _ = ((trees ++ [_]).zipIdx).map _
      rw [List.zipIdx_append, List.map_append]
      simp
    · show (trees ++ [_]).Pairwise _
      rw [List.pairwise_append]
      refine ⟨h2, by simp, ?_⟩
      intro a ha b hb
      rw [List.mem_singleton.1 hb]
      exact hlt a ha
    · intro u hu
      replace hu : u ∈ trees ++ [_] := hu
      rcases List.mem_append.1 hu with hu | hu
      · exact h3 u hu
      · rw [List.mem_singleton.1 hu]
        simp [ht]
    · intro u hu
      replace hu : u ∈ trees ++ [_] := hu
      rcases List.mem_append.1 hu with hu | hu
      · exact h4 u hu
      · rw [List.mem_singleton.1 hu]
    · exact offsets_append h5 rfl
    · show num + elements.length = ((trees ++ [_]).flatMap GhostTree.seq).length
      rw [h6]
      show (trees.flatMap GhostTree.seq).length + _ = _
      rw [List.flatMap_append, List.length_append, List.flatMap_cons, List.flatMap_nil, List.append_nil]
      congr 1
      simp [GhostTree.seq]
    · show (trees ++ [_]).flatMap GhostTree.seq = trees.flatMap GhostTree.seq ++ _
      rw [List.flatMap_append, List.flatMap_cons, List.flatMap_nil, List.append_nil]
      simp [GhostTree.seq, RemoteTree.out]
    · intro u hu
      replace hu : u ∈ trees ++ [_] := hu
      rcases List.mem_append.1 hu with hu | hu
      · exact (hlt u hu).le
      · rw [List.mem_singleton.1 hu]
    · refine ⟨⟨g, C.eclass g, (trees.flatMap GhostTree.seq).length, elements.map Prod.fst⟩, by
        show (trees ++ [_])[trees.length]? = _
        simp only [List.getElem?_append_right, le_refl, Nat.sub_self, List.getElem?_cons_zero]
        rfl, ?_, ?_⟩
      · show 0 < (elements.map _).length
        rw [List.length_map]
        omega
      · rfl
    · rintro i j pos ⟨t, a1, a2, a3⟩
      replace a1 : trees[i]? = some t := a1
      refine ⟨t, ?_, a2, a3⟩
      show (trees ++ [_])[i]? = some t
      have hi : i < trees.length := by
        by_contra hc
        rw [List.getElem?_eq_none (by omega)] at a1
        cases a1
      rw [List.getElem?_append_left hi]
      exact a1

theorem Layer.Good.mem_seq {L : Layer T} (hL : L.Good C) {u : GhostTree T} (hu : u ∈ L.trees) : ∃ x ∈ L.seq, x.1 = u.gtreeid := by
  obtain ⟨y, hy⟩ := List.exists_mem_of_ne_nil _ (hL.nonempty u hu)
  exact ⟨⟨u.gtreeid, y⟩, List.mem_flatMap.2 ⟨u, hu, List.mem_map.2 ⟨y, hy, rfl⟩⟩, rfl⟩

theorem RemoteTree.mem_out {t : RemoteTree T} {x : Leaf T} (h : x ∈ t.out) : x.1 = t.gtreeid := by
  obtain ⟨y, _, rfl⟩ := List.mem_map.1 h
  rfl

theorem insertTrees_spec (hC : C.Lawful) : ∀ (ts : List (RemoteTree T)), (∀ t ∈ ts, t.elements ≠ [] ∧ ∀ x ∈ t.elements, (T t.gtreeid).Valid x.1) →
    ts.Pairwise (fun s t => s.gtreeid < t.gtreeid) → ∀ (i : Nat) (s : ParseState T), s.layer.Good C →
    s.currentOffset = s.layer.seq.length → (∀ x ∈ s.layer.seq, ∀ t ∈ ts, x.1 ≤ t.gtreeid) →
    ∃ s', insertTrees C ts i s = some s' ∧ s'.layer.Good C ∧ s'.layer.seq = s.layer.seq ++ ts.flatMap RemoteTree.out ∧
      s'.currentOffset = s'.layer.seq.length ∧ s'.layer.processOffsets = s.layer.processOffsets ∧
      (∀ i j pos, s.layer.At i j pos → s'.layer.At i j pos) ∧
      (i ≠ 0 → s'.firstTree = s.firstTree ∧ s'.firstElement = s.firstElement) ∧
      (i = 0 → ts ≠ [] → s'.layer.At s'.firstTree s'.firstElement s.layer.seq.length)
  | [], _, _, i, s, h1, h2, _ => ⟨s, rfl, h1, by simp, h2, rfl, fun _ _ _ h => h, fun _ => ⟨rfl, rfl⟩, fun _ h => absurd rfl h⟩
  | t :: ts, hne, hids, i, s, h1, h2, h3 => by
    rw [List.pairwise_cons] at hids
    obtain ⟨L', k, j, a1, a2, a3, a4, a5, a6, a7⟩ := insertTree_spec hC h1 (hne t (by simp)).1 (hne t (by simp)).2 (fun u hu => by
      obtain ⟨x, hx, hxu⟩ := h1.mem_seq hu
      exact hxu ▸ h3 x hx t (by simp))
    have hlen : t.out.length = t.elements.length := by rw [RemoteTree.out, List.length_map]
    obtain ⟨s', b1, b2, b3, b4, b5, b6, b7, b8⟩ := insertTrees_spec hC ts (fun u hu => hne u (by simp [hu])) hids.2 (i + 1) {
        bytesRead := s.bytesRead + (block C t).length
        layer := L'
        currentOffset := s.currentOffset + t.elements.length
        firstTree := if i = 0 then k else s.firstTree
        firstElement := if i = 0 then j else s.firstElement } a2 (by simp only; rw [a3, List.length_append, hlen, h2]) (by
        intro x hx u hu
        replace hx : x ∈ L'.seq := hx
        rw [a3] at hx
        rcases List.mem_append.1 hx with hx | hx
        · exact h3 x hx u (by simp [hu])
        · rw [RemoteTree.mem_out hx]
          exact (hids.1 u hu).le)
    refine ⟨s', ?_, b2, ?_, b4, b5.trans a4, fun i j pos h => b6 _ _ _ (a7 _ _ _ h), ?_, ?_⟩
    · rw [insertTrees, h2, a1]
      rw [← b1, h2]
      rfl
    · rw [b3]
      show L'.seq ++ _ = _
      rw [a3, List.flatMap_cons, List.append_assoc]
    · intro hi
      have := b7 (by omega)
      simpa [hi] using this
    · intro hi _
      obtain ⟨c1, c2⟩ := b7 (by omega)
      rw [c1, c2]
      simp only [hi, if_true]
      exact b6 _ _ _ a6

/-- What a message holds: trees with elements, in the order of the trees. -/
structure MessageGood (C : Codec T) (trees : List (RemoteTree T)) : Prop where
  trees_ne : trees ≠ []
  nonempty : ∀ t ∈ trees, t.elements ≠ [] ∧ ∀ x ∈ t.elements, (T t.gtreeid).Valid x.1
  order : trees.Pairwise (fun s t => s.gtreeid < t.gtreeid)
  fits : Fits C trees

theorem parseMessage_spec (hC : C.Lawful) {trees : List (RemoteTree T)} (ht : MessageGood C trees) {L : Layer T} (hL : L.Good C)
    (hle : ∀ x ∈ L.seq, ∀ t ∈ trees, x.1 ≤ t.gtreeid) {rank : Int} (hrank : ∀ e ∈ L.processOffsets, e.rank ≠ rank) :
    ∃ L' i j, parseMessage C L L.seq.length rank (messageOf C trees) = some (L', L'.seq.length) ∧ L'.Good C ∧
      L'.seq = L.seq ++ trees.flatMap RemoteTree.out ∧ L'.processOffsets = L.processOffsets ++ [⟨rank, L.seq.length, i, j⟩] ∧
      L'.At i j L.seq.length ∧ ∀ i j pos, L.At i j pos → L'.At i j pos := by
  obtain ⟨s, a1, a2, a3, a4, a5, a6, a7, a8⟩ := insertTrees_spec hC trees ht.nonempty ht.order 0
    ⟨(pad (toBytes sizeofSize trees.length)).length, L, L.seq.length, 0, 0⟩ hL rfl hle
  refine ⟨{ s.layer with processOffsets := s.layer.processOffsets ++ [⟨rank, L.numGhosts, s.firstTree, s.firstElement⟩] }, s.firstTree,
    s.firstElement, ?_, ⟨a2.hash, a2.ids, a2.nonempty, a2.eclass, a2.offsets, a2.count⟩, a3, ?_, a8 rfl ht.trees_ne, a6⟩
  · rw [parseMessage_eq hC ht.fits, a1]
    simp only [Option.bind_eq_bind, Option.bind_some]
    rw [assertO_true (by
      rw [List.all_eq_true, a5]
      intro e he
      exact decide_eq_true (hrank e he)), a4]
    rfl
  · show s.layer.processOffsets ++ _ = _
    rw [a5, hL.count]

/-- The layer holds the leaves `part.2` from the processes `part.1`, in this order. -/
structure Layer.Holds (C : Codec T) (L : Layer T) (parts : List (Int × List (Leaf T))) : Prop where
  good : L.Good C
  seq : L.seq = parts.flatMap Prod.snd
  length : L.processOffsets.length = parts.length
  offsets : ∀ (k : Nat) e part, L.processOffsets[k]? = some e → parts[k]? = some part → e.rank = part.1 ∧
    e.ghostOffset = ((parts.take k).flatMap Prod.snd).length ∧ L.At e.treeIndex e.firstElement e.ghostOffset

theorem Layer.holds_nil : (⟨[], [], [], 0⟩ : Layer T).Holds C [] :=
  ⟨⟨rfl, List.Pairwise.nil, by simp, by simp, by simp, rfl⟩, rfl, rfl, by simp⟩

theorem parse_holds (hC : C.Lawful) {trees : List (RemoteTree T)} (ht : MessageGood C trees) {L : Layer T}
    {parts : List (Int × List (Leaf T))} (hL : L.Holds C parts) (hle : ∀ part ∈ parts, ∀ x ∈ part.2, ∀ t ∈ trees, x.1 ≤ t.gtreeid)
    {rank : Int} (hrank : ∀ part ∈ parts, part.1 ≠ rank) :
    ∃ L', parseMessage C L L.seq.length rank (messageOf C trees) = some (L', L'.seq.length) ∧
      L'.Holds C (parts ++ [(rank, trees.flatMap RemoteTree.out)]) := by
  obtain ⟨L', i, j, a1, a2, a3, a4, a5, a6⟩ := parseMessage_spec hC ht hL.good (rank := rank) (fun x hx t htm => by
    rw [hL.seq] at hx
    obtain ⟨part, hp, hx⟩ := List.mem_flatMap.1 hx
    exact hle part hp x hx t htm) (fun e he => by
    obtain ⟨k, hk⟩ := List.getElem?_of_mem he
    have hk' : k < parts.length := by
      rw [← hL.length]
      by_contra hc
      rw [List.getElem?_eq_none (by omega)] at hk
      cases hk
    rw [(hL.offsets k e _ hk (List.getElem?_eq_getElem hk')).1]
    exact hrank _ (List.getElem_mem hk'))
  refine ⟨L', a1, a2, ?_, ?_, ?_⟩
  · rw [a3, hL.seq, List.flatMap_append, List.flatMap_cons, List.flatMap_nil, List.append_nil]
  · rw [a4, List.length_append, List.length_append, hL.length]
    rfl
  · intro k e part he hpart
    rw [a4] at he
    rcases Nat.lt_or_ge k parts.length with hk | hk
    · rw [List.getElem?_append_left (by rw [hL.length]; exact hk)] at he
      rw [List.getElem?_append_left hk] at hpart
      rw [List.take_append_of_le_length (by omega)]
      obtain ⟨b1, b2, b3⟩ := hL.offsets k e part he hpart
      exact ⟨b1, b2, a6 _ _ _ b3⟩
    · rw [List.getElem?_append_right (by rw [hL.length]; exact hk), hL.length] at he
      rw [List.getElem?_append_right hk] at hpart
      obtain rfl : k = parts.length := by
        by_contra hc
        rw [List.getElem?_eq_none (by simp; omega)] at hpart
        cases hpart
      simp only [Nat.sub_self, List.getElem?_cons_zero, Option.some.injEq] at he hpart
      subst he
      subst hpart
      rw [List.take_append_of_le_length (by omega), List.take_length, ← hL.seq]
      exact ⟨rfl, rfl, a5⟩

end T8.Ghost
