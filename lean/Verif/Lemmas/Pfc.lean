/-
Lemmas on partition for coarsening (`Model/Pfc.lean`).
-/
import Verif.Model.Pfc
import Verif.Lemmas.PfcFamily
import Verif.Lemmas.PartitionRange
import Verif.Lemmas.PartitionForest
import Verif.Lemmas.OwnerFace
import Verif.Props.ForestTrees

namespace T8.Pfc
open T8.Spec T8.Trees RTree
open T8.Partition (slice_length slice_getElem?)

/-! ### Search in sorted arrays -/

section Table
variable {P N : Nat} (R : ElementPartition P N)

theorem table_take : R.table.take P = (List.range P).map (fun p => (R.off p : Int)) := by
  rw [ElementPartition.table, ← List.map_take, List.take_range]
  congr 2
  omega

/-- `proc_owner` is the last process whose offset is at most `e`. -/
theorem procOwner_spec {e : Int} (he : 0 ≤ e) :
    ∃ r : Nat, procOwner R.table P e = r ∧ r < P ∧ (R.off r : Int) ≤ e ∧ ∀ s, s < P → r < s → e < R.off s := by
  have hpos := R.pos
  rw [procOwner, upperBound, table_take]
  generalize hi : ((List.range P).map (fun p => (R.off p : Int))).findIdx (fun v => decide (e < v)) = i
  have hle : i ≤ P := by
    rw [← hi]
    have := List.findIdx_le_length (xs := (List.range P).map (fun p => (R.off p : Int))) (p := fun v => decide (e < v))
    simpa using this
  have hlow : ∀ s, s < i → (R.off s : Int) ≤ e := by
    intro s hs
    have := List.not_of_lt_findIdx (xs := (List.range P).map (fun p => (R.off p : Int))) (p := fun v => decide (e < v)) (i := s)
      (by rw [hi]; exact hs)
    simp at this
    exact this
  have hup : i < P → e < R.off i := by
    intro h
    have := List.findIdx_getElem (xs := (List.range P).map (fun p => (R.off p : Int))) (p := fun v => decide (e < v))
      (w := by rw [hi]; simpa using h)
    simp only [List.getElem_map, List.getElem_range, hi] at this
    simpa using this
  have h0 : 0 < i := by
    rcases Nat.eq_zero_or_pos i with h | h
    · have := hup (by omega)
      rw [h, R.zero] at this
      omega
    · exact h
  refine ⟨i - 1, by omega, by omega, hlow _ (by omega), ?_⟩
  intro s hs hs'
  have h1 := hup (by omega)
  have h2 := R.off_mono (p := i) (q := s) (by omega) (by omega)
  omega

/-- The number of processes with an offset below `x`. -/
theorem lowerBound_spec (x : Nat) :
    ∃ r : Nat, lowerBound R.table P x = r ∧ r ≤ P ∧ (∀ s, s < r → R.off s < x) ∧ ∀ s, s < P → r ≤ s → x ≤ R.off s := by
  rw [lowerBound, table_take]
  generalize hi : ((List.range P).map (fun p => (R.off p : Int))).findIdx (fun v => decide (¬ v < (x : Int))) = i
  have hle : i ≤ P := by
    rw [← hi]
    have := List.findIdx_le_length (xs := (List.range P).map (fun p => (R.off p : Int))) (p := fun v => decide (¬ v < (x : Int)))
    simpa using this
  have hup : i < P → x ≤ R.off i := by
    intro h
    have := List.findIdx_getElem (xs := (List.range P).map (fun p => (R.off p : Int))) (p := fun v => decide (¬ v < (x : Int)))
      (w := by rw [hi]; simpa using h)
    simp only [List.getElem_map, List.getElem_range, hi] at this
    simpa using this
  refine ⟨i, rfl, hle, ?_, ?_⟩
  · intro s hs
    have := List.not_of_lt_findIdx (xs := (List.range P).map (fun p => (R.off p : Int))) (p := fun v => decide (¬ v < (x : Int))) (i := s)
      (by rw [hi]; exact hs)
    simp at this
    exact this
  · intro s hs hs'
    have h1 := hup (by omega)
    have h2 := R.off_mono (p := i) (q := s) (by omega) (by omega)
    omega

/-- The processes that process `p` exchanges messages with. -/
theorem relevantRange_spec {p : Nat} (hp : p < P) (hne : R.Nonempty p) :
    ∃ b e : Nat, relevantRange R.table p P = some ((b : Int), (e : Int)) ∧ b ≤ p ∧ p < e ∧ e ≤ P ∧
      (∀ q, q < P → R.Nonempty q → (b ≤ q ↔ R.off p < R.off (q + 1) + 9)) ∧
      (∀ q, q < P → R.Nonempty q → (q < e ↔ R.off q < R.off (p + 1) + 9)) ∧
      R.off b + 9 ≤ max 9 (R.off p) ∧ min N (R.off (p + 1) + 9) ≤ R.off e := by
  have hne' : R.off p < R.off (p + 1) := hne
  have htop := R.top
  have hle : R.off (p + 1) ≤ N := R.off_le (by omega)
  obtain ⟨b, hb, hbP, hb1, hb2⟩ := procOwner_spec R (e := max 0 ((R.off p : Int) - (maxChildren - 1))) (by omega)
  obtain ⟨e, he, heP, he1, he2⟩ := procOwner_spec R
    (e := min (R.off P : Int) ((R.off (p + 1) : Int) + (maxChildren - 1)) - 1) (by unfold maxChildren; omega)
  unfold maxChildren at hb hb1 hb2 he he1 he2
  have hbp : b ≤ p := by
    by_contra hc
    have := R.off_mono (p := p + 1) (q := b) (by omega) (by omega)
    omega
  have hpe : p ≤ e := by
    by_contra hc
    have := he2 p hp (by omega)
    omega
  refine ⟨b, e + 1, ?_, hbp, by omega, by omega, ?_, ?_, ?_, ?_⟩
  · rw [relevantRange, R.rd_table (by omega), R.rd_table (le_refl P), show ((p : Int) + 1) = ((p + 1 : Nat) : Int) by omega,
      R.rd_table (by omega)]
    simp only [Option.bind_eq_bind, Option.bind_some]
    unfold maxChildren
    rw [hb, he, assertO_true (by omega), assertO_true (by omega), assertO_true (by omega)]
    rfl
  · intro q hq hqne
    have hq' : R.off q < R.off (q + 1) := hqne
    constructor
    · intro h
      rcases Nat.eq_or_lt_of_le h with h' | h'
      · subst h'
        rcases Nat.lt_or_ge (b + 1) P with hc | hc
        · have := hb2 (b + 1) hc (by omega)
          omega
        · have : b + 1 = P := by omega
          rw [this, htop]
          omega
      · have := hb2 q hq h'
        omega
    · intro h
      by_contra hc
      have := R.off_mono (p := q + 1) (q := b) (by omega) (by omega)
      omega
  · intro q hq hqne
    have hq' : R.off q < R.off (q + 1) := hqne
    have hq2 : R.off (q + 1) ≤ N := R.off_le (by omega)
    constructor
    · intro h
      have := R.off_mono (p := q) (q := e) (by omega) (by omega)
      omega
    · intro h
      by_contra hc
      have := he2 q hq (by omega)
      omega
  · omega
  · rcases Nat.lt_or_ge (e + 1) P with hc | hc
    · have := he2 (e + 1) hc (by omega)
      omega
    · have : e + 1 = P := by omega
      rw [this, htop]
      omega

end Table

/-! ### Siblings in a local tree -/

section Sibling
variable {U : RTree} {S : Scheme U}

/-- Entry `i` of the array is a child of `x`. -/
def Child (leaves : List U.E) (x : U.E) (i : Int) : Prop := ∃ e, rd leaves i = some e ∧ 0 < U.level e ∧ U.parent e = x

theorem rd_nat {α : Type} (l : List α) {i : Int} (h : 0 ≤ i) : rd l i = l[i.toNat]? := by rw [rd, if_neg (by omega)]

theorem rd_some {α : Type} {l : List α} {i : Int} {x : α} (h : rd l i = some x) : 0 ≤ i ∧ i < l.length ∧ l[i.toNat]? = some x := by
  rw [rd] at h
  split at h
  · cases h
  · have := (List.getElem?_eq_some_iff.1 h).1
    exact ⟨by omega, by omega, h⟩

theorem rd_before {leaves : List U.E} (ho : U.Ordered leaves) {i j : Int} {x y : U.E} (hij : i < j) (hi : rd leaves i = some x)
    (hj : rd leaves j = some y) : U.Before x y := by
  obtain ⟨h1, h2, h3⟩ := rd_some hi
  obtain ⟨h4, h5, h6⟩ := rd_some hj
  obtain ⟨k1, k2⟩ := List.getElem?_eq_some_iff.1 h3
  obtain ⟨k3, k4⟩ := List.getElem?_eq_some_iff.1 h6
  have := List.pairwise_iff_getElem.1 ho.2 i.toNat j.toNat k1 k3 (by omega)
  rwa [k2, k4] at this

/-- In a run of siblings the child ids increase. -/
theorem run_childId {leaves : List U.E} (ho : U.Ordered leaves) {x : U.E} {i : Int} {n : Nat} (h : ∀ k : Nat, k ≤ n → Child leaves x (i + k))
    {a b : U.E} (ha : rd leaves i = some a) (hb : rd leaves (i + n) = some b) : U.childId a + n ≤ U.childId b := by
  induction n generalizing b with
  | zero => simp at hb; rw [ha] at hb; cases hb; simp
  | succ n ih =>
    obtain ⟨c, hc, hc0, hcp⟩ := h n (by omega)
    obtain ⟨b', hb', hb0, hbp⟩ := h (n + 1) le_rfl
    rw [hb] at hb'
    cases hb'
    have h1 := ih (fun k hk => h k (by omega)) hc
    have h2 := childId_lt_of_before (rd_before ho (by omega) hc hb) hc0 hb0 (hcp.trans hbp.symm)
    omega

theorem run_short {leaves : List U.E} (ho : U.Ordered leaves) {x : U.E} {i : Int} {n : Nat} (h : ∀ k : Nat, k ≤ n → Child leaves x (i + k)) :
    n < U.nc x := by
  obtain ⟨a, ha, _, _⟩ := h 0 (by omega)
  obtain ⟨b, hb, hb0, hbp⟩ := h n le_rfl
  have h1 := run_childId ho h (a := a) (by simpa using ha) hb
  obtain ⟨_, _, h3⟩ := rd_some hb
  have h2 := U.childId_lt b (ho.1 b (List.mem_of_getElem? h3)) hb0
  rw [hbp] at h2
  omega

/-- `extreme_local_sibling` finds the end of the run of siblings, in either direction. -/
theorem extreme_spec (hS : S.Lawful) {leaves : List U.E} (ho : U.Ordered leaves) {start inc : Int} {e : U.E} (he : rd leaves start = some e)
    (h0 : 0 < U.level e) (hinc : inc = 1 ∨ inc = -1) :
    ∃ m : Nat, extremeLocalSibling S leaves start inc = some (start + inc * m) ∧
      (∀ k : Nat, k ≤ m → Child leaves (U.parent e) (start + inc * k)) ∧ ¬ Child leaves (U.parent e) (start + inc * (m + 1 : Nat)) := by
  obtain ⟨hs0, hs1, hs2⟩ := rd_some he
  have hve : U.Valid e := ho.1 e (List.mem_of_getElem? hs2)
  have habs : |inc| = 1 := by rcases hinc with rfl | rfl <;> rfl
  have hinc2 : inc * inc = 1 := by rcases hinc with rfl | rfl <;> rfl
  -- a root cannot be in the same tree
  have hlev : ∀ (i : Int) (y : U.E), rd leaves i = some y → 0 < U.level y := by
    intro i y hy
    obtain ⟨_, _, hy2⟩ := rd_some hy
    have hvy := ho.1 y (List.mem_of_getElem? hy2)
    rcases Nat.eq_zero_or_pos (U.level y) with hz | hz
    · exfalso
      have hr := U.root_unique y hvy hz
      have hd : U.Desc y e := by rw [hr]; exact desc_root hve
      rcases lt_trichotomy i start with h | h | h
      · exact (rd_before ho h hy he).not_desc.1 hd
      · rw [h, he] at hy; cases hy; omega
      · exact (rd_before ho h he hy).not_desc.2 hd
    · exact hz
  generalize hck : max 0 (min (start + inc * (U.nc (U.parent e) : Int)) ((leaves.length : Int) - 1)) = check
  have hck0 : 0 ≤ check ∧ check < leaves.length := by omega
  obtain ⟨s, hs, ⟨k, hki, hkm, hrun, hall⟩, hcond⟩ := whileO_spec
    (cond := fun s : SiblingState => some (s.run && decide ((s.ielem - check) * inc ≤ 0)))
    (body := siblingBody S leaves (U.parent e) inc)
    (fun s => ∃ k : Nat, s.ielem = start + inc * k ∧ s.extreme = (if k = 0 then start else start + inc * (k - 1 : Nat)) ∧
      (s.run = false → 0 < k ∧ ¬ Child leaves (U.parent e) (start + inc * k)) ∧
      (∀ k' : Nat, k' < k → Child leaves (U.parent e) (start + inc * k')) )
    (fun s => 2 * (((check - s.ielem) * inc + 1).toNat) + if s.run then 1 else 0)
    (by
      rintro ⟨i, ext, run⟩ ⟨k, hki, hkx, hrun, hall⟩
      simp only at hki hkx hrun
      cases run with
      | false => left; rfl
      | true =>
        by_cases hc : (i - check) * inc ≤ 0
        · right
          refine ⟨by simp [hc], ?_⟩
          have hi : 0 ≤ i ∧ i < leaves.length := by
            rcases hinc with rfl | rfl <;> omega
          obtain ⟨y, hy⟩ : ∃ y, rd leaves i = some y := ⟨leaves[i.toNat]'(by omega), by
            rw [rd_nat _ hi.1, List.getElem?_eq_getElem (by omega)]⟩
          have hly := hlev i y hy
          have hvy := ho.1 y (List.mem_of_getElem? (rd_some hy).2.2)
          rw [siblingBody, hy]
          simp only [Option.bind_eq_bind, Option.bind_some]
          rw [assertO_true hly]
          simp only [Option.bind_some]
          by_cases heq : U.parent e = U.parent y
          · rw [if_pos ((hS.isEqual _ _ (U.valid_parent e hve h0) (U.valid_parent y hvy hly)).2 heq)]
            refine ⟨_, rfl, ⟨k + 1, ?_, ?_, by simp, ?_⟩, ?_⟩
            · simp only; rw [hki]; push_cast; ring
            · simp only [Nat.add_one_ne_zero, if_false, Nat.add_sub_cancel]
              exact hki
            · intro k' hk'
              rcases Nat.eq_or_lt_of_le (show k' ≤ k by omega) with h | h
              · rw [h, ← hki]; exact ⟨y, hy, hly, heq.symm⟩
              · exact hall k' h
            · simp only
              have : (check - (i + inc)) * inc = (check - i) * inc - 1 := by
                rw [show (check - (i + inc)) * inc = (check - i) * inc - inc * inc by ring, hinc2]
              rw [this]
              have h2 : (check - i) * inc = -((i - check) * inc) := by ring
              rw [h2]
              simp
              omega
          · rw [if_neg (fun h => heq ((hS.isEqual _ _ (U.valid_parent e hve h0) (U.valid_parent y hvy hly)).1 h))]
            refine ⟨_, rfl, ⟨k, hki, hkx, ?_, hall⟩, by simp⟩
            intro _
            refine ⟨?_, ?_⟩
            · rcases Nat.eq_zero_or_pos k with h | h
              · subst h
                simp at hki
                rw [hki, he] at hy
                cases hy
                exact absurd rfl heq
              · exact h
            · rw [← hki]
              rintro ⟨y', hy', _, hp'⟩
              rw [hy] at hy'
              cases hy'
              exact heq hp'.symm
        · left
          simp [hc])
    ⟨start, start, true⟩ ⟨0, by simp, by simp, by simp, by intro k' hk'; omega⟩
  have hext : ∃ m : Nat, k = m + 1 ∧ ¬ Child leaves (U.parent e) (start + inc * (m + 1 : Nat)) := by
    cases hr : s.run with
    | false =>
      obtain ⟨h1, h2⟩ := hrun hr
      exact ⟨k - 1, by omega, by rw [show k - 1 + 1 = k by omega]; exact h2⟩
    | true =>
      rw [hr] at hcond
      simp only [Bool.true_and, Option.some.injEq, decide_eq_false_iff_not] at hcond
      rw [hki] at hcond
      have hk0 : 0 < k := by
        rcases Nat.eq_zero_or_pos k with h | h
        · subst h
          exfalso
          apply hcond
          rcases hinc with rfl | rfl
          · simp; omega
          · simp; omega
        · exact h
      refine ⟨k - 1, by omega, ?_⟩
      rw [show k - 1 + 1 = k by omega]
      -- the bound cannot cut the run, because it would be too long
      rintro ⟨y, hy, hy0, hyp⟩
      obtain ⟨y1, y2, _⟩ := rd_some hy
      have hall' : ∀ k' : Nat, k' ≤ k → Child leaves (U.parent e) (start + inc * k') := by
        intro k' hk'
        rcases Nat.eq_or_lt_of_le hk' with h | h
        · rw [h]; exact ⟨y, hy, hy0, hyp⟩
        · exact hall k' h
      have hk : U.nc (U.parent e) ≤ k := by
        rcases hinc with rfl | rfl
        · omega
        · omega
      rcases hinc with rfl | rfl
      · have := run_short ho (x := U.parent e) (i := start) (n := k) (fun k' hk' => by have := hall' k' hk'; rwa [one_mul] at this)
        omega
      · have := run_short ho (x := U.parent e) (i := start - k) (n := k) (fun k' hk' => by
          have := hall' (k - k') (by omega)
          rwa [show start + -1 * ((k - k' : Nat) : Int) = start - k + k' by omega] at this)
        omega
  obtain ⟨m, rfl, hm⟩ := hext
  refine ⟨m, ?_, fun k hk => hall k (by omega), hm⟩
  rw [extremeLocalSibling, assertO_true habs, he]
  simp only [Option.bind_eq_bind, Option.bind_some]
  rw [if_neg (by omega), hck, hs]
  simp [hkm]

end Sibling

/-! ### Local trees -/

section Local
variable {T : Nat → RTree} {S : (g : Nat) → Scheme (T g)} {seq : List (Σ g, (T g).E)}

/-- The forest on a process stores the leaves `lo, …, hi - 1`: the trees are consecutive, `elements_offset` counts the leaves in the
trees before. Trees may be empty. -/
structure Stored (seq : List (Σ g, (T g).E)) (lo hi : Nat) (F : Forest T) : Prop where
  leaves : F.trees.flatMap (fun t => t.leaves.map (Sigma.mk t.gtree)) = slice seq lo hi
  num : F.localNum = (slice seq lo hi).length
  index : ∀ (i : Nat) (t : Tree T), F.trees[i]? = some t → (t.gtree : Int) = F.firstLocalTree + i
  offset : ∀ (i : Nat) (t : Tree T), F.trees[i]? = some t → t.elementsOffset = (((F.trees.take i).map (fun t => t.leaves.length)).sum : Nat)

theorem flatten_at {α : Type} {lss : List (List α)} {t j : Nat} {ls : List α} (ht : lss[t]? = some ls) (hj : j < ls.length) :
    lss.flatten[before lss t + j]? = ls[j]? := by
  obtain ⟨hlt, rfl⟩ := List.getElem?_eq_some_iff.1 ht
  have : lss.flatten = (lss.take t ++ lss[t] :: lss.drop (t + 1)).flatten := by
    rw [List.getElem_cons_drop, List.take_append_drop]
  rw [this]
  rw [List.flatten_append, List.getElem?_append_right (by rw [before]; omega), List.flatten_cons,
    List.getElem?_append_left (by rw [before]; omega)]
  congr 1
  rw [before]; omega

/-- What `index_in_tree_from_globalid` finds for the leaf at position `j`: a tree whose leaves are at the positions from `base` on. -/
structure Located.At (seq : List (Σ g, (T g).E)) (lo hi j : Nat) (l : Located T) (base : Nat) : Prop where
  gtreeId : l.gtreeId = l.tree.gtree
  low : lo ≤ base
  high : base + l.tree.leaves.length ≤ hi
  offset : l.tree.elementsOffset = (base : Int) - lo
  index : l.index = (j : Int) - base
  ge : base ≤ j
  lt : j < base + l.tree.leaves.length
  leaf : ∀ k, k < l.tree.leaves.length → seq[base + k]? = (l.tree.leaves[k]?).map (Sigma.mk l.tree.gtree)
  elem : rd l.tree.leaves l.index = some l.element
  other : ∀ (k : Nat) (y : Σ g, (T g).E), lo ≤ k → k < hi → k < base ∨ base + l.tree.leaves.length ≤ k → seq[k]? = some y → y.1 ≠ l.tree.gtree

theorem indexInTree_spec {bs : Int → List (OffTree (Σ g, (T g).E)) → Option Nat}
    (hbs : ∀ key l, Stash.IsBsearch compareElemTree key l (bs key l)) {lo hi : Nat} {F : Forest T} (hF : Stored seq lo hi F)
    (hhi : hi ≤ seq.length) {j : Nat} (h1 : lo ≤ j) (h2 : j < hi) :
    ∃ l base, indexInTree bs F lo j = some l ∧ Located.At seq lo hi j l base := by
  generalize hlss : F.trees.map (fun t => t.leaves.map (Sigma.mk (β := fun g => (T g).E) t.gtree)) = lss
  have hlen : (slice seq lo hi).length = hi - lo := by rw [slice_length]; omega
  have hflat : lss.flatten = slice seq lo hi := by
    rw [← hF.leaves, ← hlss, List.flatMap_def]
  have hget : ∀ {i : Nat} {t : Tree T}, F.trees[i]? = some t → lss[i]? = some (t.leaves.map (Sigma.mk t.gtree)) := by
    intro i t ht
    rw [← hlss, List.getElem?_map, ht]; rfl
  have hget' : ∀ {i : Nat} {ls : List (Σ g, (T g).E)}, lss[i]? = some ls → ∃ t, F.trees[i]? = some t ∧ ls = t.leaves.map (Sigma.mk t.gtree) := by
    intro i ls h
    rw [← hlss, List.getElem?_map] at h
    cases ht : F.trees[i]? with
    | none => rw [ht] at h; cases h
    | some t => rw [ht] at h; simp only [Option.map_some, Option.some.injEq] at h; exact ⟨t, rfl, h.symm⟩
  have hoff : ∀ {i : Nat} {t : Tree T}, F.trees[i]? = some t → t.elementsOffset = (before lss i : Int) := by
    intro i t ht
    rw [hF.offset i t ht, before, ← hlss, ← List.map_take, List.length_flatten, List.map_map]
    congr 3
    funext t
    simp
  have hN : Numbered lss (F.trees.map Tree.offTree) := by
    refine ⟨?_, ?_⟩
    · rw [← hlss, List.map_map]; rfl
    · intro i tree ht
      rw [List.getElem?_map] at ht
      cases hx : F.trees[i]? with
      | none => rw [hx] at ht; cases ht
      | some t =>
        rw [hx] at ht
        simp only [Option.map_some, Option.some.injEq] at ht
        rw [← ht]
        exact hoff hx
  -- the positions of the leaves of a tree
  have hpos : ∀ {i : Nat} {t : Tree T}, F.trees[i]? = some t → lo + before lss i + t.leaves.length ≤ hi ∧
      ∀ k, k < t.leaves.length → seq[lo + before lss i + k]? = (t.leaves[k]?).map (Sigma.mk t.gtree) := by
    intro i t ht
    have hl := hget ht
    have h3 := before_succ hl
    have h4 := before_mono (lss := lss) (show i + 1 ≤ lss.length from (List.getElem?_eq_some_iff.1 hl).1)
    rw [before_length, hflat, hlen] at h4
    rw [List.length_map] at h3
    refine ⟨by omega, ?_⟩
    intro k hk
    rw [← List.getElem?_map, ← flatten_at hl (by rw [List.length_map]; exact hk), hflat, slice_getElem? _ _ _ _ (by omega)]
    congr 1
    omega
  obtain ⟨i, ls, hls, hb1, hb2⟩ := exists_tree (lss := lss) (id := j - lo) (by rw [hflat, hlen]; omega)
  obtain ⟨t, ht, rfl⟩ := hget' hls
  rw [List.length_map] at hb2
  obtain ⟨p1, p2⟩ := hpos ht
  obtain ⟨e, he⟩ : ∃ e, t.leaves[j - lo - before lss i]? = some e := ⟨_, List.getElem?_eq_getElem (by omega)⟩
  have hrd : rd t.leaves ((j : Int) - lo - t.elementsOffset) = some e := by
    rw [hoff ht, rd_nat _ (by omega), ← he]
    congr 1
    omega
  refine ⟨⟨F.firstLocalTree + i, t, (j : Int) - lo - t.elementsOffset, e⟩, lo + before lss i, ?_, ?_⟩
  · have hgl := getLeafElement_spec hbs hN (id := j - lo) hls hb1 (e := ⟨t.gtree, e⟩) (by
      rw [List.getElem?_map, he]; rfl)
    rw [hflat, ← hF.num, show ((j - lo : Nat) : Int) = (j : Int) - lo by omega] at hgl
    rw [indexInTree]
    simp only [Option.bind_eq_bind]
    rw [hgl]
    simp only [Option.bind_some]
    rw [ht]
    simp only [Option.bind_some]
    rw [hrd]
    rfl
  · refine ⟨(hF.index i t ht).symm, by omega, p1, ?_, ?_, by omega, by show j < lo + before lss i + t.leaves.length; omega, p2, hrd, ?_⟩
    · show t.elementsOffset = _
      rw [hoff ht]; push_cast; omega
    · show (j : Int) - lo - t.elementsOffset = _
      rw [hoff ht]; push_cast; omega
    · intro k y hk1 hk2 hk3 hy heq
      simp only at hk3 heq
      obtain ⟨i', ls', hls', hb1', hb2'⟩ := exists_tree (lss := lss) (id := k - lo) (by rw [hflat, hlen]; omega)
      obtain ⟨t', ht', rfl⟩ := hget' hls'
      rw [List.length_map] at hb2'
      have hp := (hpos ht').2 (k - lo - before lss i') (by omega)
      rw [show lo + before lss i' + (k - lo - before lss i') = k by omega, hy, List.getElem?_eq_getElem (by omega)] at hp
      simp only [Option.map_some, Option.some.injEq] at hp
      have hg : y.1 = t'.gtree := by rw [hp]
      have e1 := hF.index i t ht
      have e2 := hF.index i' t' ht'
      have hii : i' = i := by omega
      subst hii
      rw [ht] at ht'
      cases ht'
      omega

namespace Located.At
variable {lo hi j base : Nat} {l : Located T}

theorem seq_j (h : Located.At seq lo hi j l base) : seq[j]? = some ⟨l.tree.gtree, l.element⟩ := by
  have h1 := h.leaf (j - base) (by have := h.lt; have := h.ge; omega)
  obtain ⟨_, _, h3⟩ := rd_some h.elem
  have hge := h.ge
  rw [show base + (j - base) = j by omega, show j - base = l.index.toNat by rw [h.index]; omega, h3] at h1
  exact h1

theorem child_iff (h : Located.At seq lo hi j l base) {x : (T l.tree.gtree).E} {k : Nat} (hk1 : lo ≤ k) (hk2 : k < hi) :
    Child l.tree.leaves x ((k : Int) - base) ↔ Sib seq l.tree.gtree x k := by
  constructor
  · rintro ⟨e, he, h0, hp⟩
    obtain ⟨h1, h2, h3⟩ := rd_some he
    have h4 := h.leaf (k - base) (by omega)
    rw [show base + (k - base) = k by omega, show k - base = ((k : Int) - base).toNat by omega, h3] at h4
    exact ⟨e, h4, h0, hp⟩
  · rintro ⟨e, he, h0, hp⟩
    have hin : ¬ (k < base ∨ base + l.tree.leaves.length ≤ k) := fun hc => h.other k _ hk1 hk2 hc he rfl
    have h4 := h.leaf (k - base) (by omega)
    rw [show base + (k - base) = k by omega, he, List.getElem?_eq_getElem (by omega)] at h4
    simp only [Option.map_some, Option.some.injEq] at h4
    refine ⟨e, ?_, h0, hp⟩
    rw [rd_nat _ (by omega), show ((k : Int) - base).toNat = k - base by omega, List.getElem?_eq_getElem (by omega)]
    have h5 : e = l.tree.leaves[k - base]'(by omega) := by simpa using h4
    rw [h5]

theorem ordered (h : Located.At seq lo hi j l base) (H : Linear seq) : (T l.tree.gtree).Ordered l.tree.leaves := by
  have hseq : ∀ (k : Nat) (hk : k < l.tree.leaves.length), seq[base + k]? = some ⟨l.tree.gtree, l.tree.leaves[k]⟩ := by
    intro k hk
    rw [h.leaf k hk, List.getElem?_eq_getElem hk]; rfl
  refine ⟨?_, ?_⟩
  · intro x hx
    obtain ⟨k, hk, rfl⟩ := List.mem_iff_getElem.1 hx
    exact H.valid _ _ _ (hseq k hk)
  · rw [List.pairwise_iff_getElem]
    intro i k hi hk hik
    exact H.before _ _ _ _ _ (by omega) (hseq i hi) (hseq k hk)

/-- The first sibling on the process. -/
theorem down (h : Located.At seq lo hi j l base) (H : Linear seq) (hS : ∀ g, (S g).Lawful) (hhi : hi ≤ seq.length) (hj : j < hi)
    (h0 : 0 < (T l.tree.gtree).level l.element) :
    ∃ r : Nat, extremeLocalSibling (S l.tree.gtree) l.tree.leaves l.index (-1) = some ((r : Int) - base) ∧ lo ≤ r ∧ r ≤ j ∧
      (∀ i, r ≤ i → i ≤ j → Sib seq l.tree.gtree ((T l.tree.gtree).parent l.element) i) ∧
      (r = lo ∨ ¬ Sib seq l.tree.gtree ((T l.tree.gtree).parent l.element) (r - 1)) := by
  have hlow := h.low
  have hhigh := h.high
  have hge := h.ge
  obtain ⟨m, h1, h2, h3⟩ := extreme_spec (hS _) (h.ordered H) h.elem h0 (Or.inr rfl)
  obtain ⟨_, hm, _⟩ := h2 m le_rfl
  obtain ⟨hm1, hm2, _⟩ := rd_some hm
  rw [h.index] at h1 h2 h3 hm1 hm2
  refine ⟨j - m, ?_, by omega, by omega, ?_, ?_⟩
  · rw [← h.index] at h1
    rw [h1, h.index]
    congr 1
    omega
  · intro i hi1 hi2
    have := h2 (j - i) (by omega)
    rw [show (j : Int) - base + -1 * ((j - i : Nat) : Int) = (i : Int) - base by omega] at this
    exact (h.child_iff (by omega) (by omega)).1 this
  · rcases Nat.eq_or_lt_of_le (show lo ≤ j - m by omega) with hc | hc
    · exact Or.inl hc.symm
    · right
      rw [show (j : Int) - base + -1 * ((m + 1 : Nat) : Int) = ((j - m - 1 : Nat) : Int) - base by omega] at h3
      exact fun hs => h3 ((h.child_iff (by omega) (by omega)).2 hs)

/-- The last sibling on the process. -/
theorem up (h : Located.At seq lo hi j l base) (H : Linear seq) (hS : ∀ g, (S g).Lawful) (hhi : hi ≤ seq.length) (hj : lo ≤ j)
    (h0 : 0 < (T l.tree.gtree).level l.element) :
    ∃ r : Nat, extremeLocalSibling (S l.tree.gtree) l.tree.leaves l.index 1 = some ((r : Int) - base) ∧ j ≤ r ∧ r < hi ∧
      (∀ i, j ≤ i → i ≤ r → Sib seq l.tree.gtree ((T l.tree.gtree).parent l.element) i) ∧
      (r + 1 = hi ∨ ¬ Sib seq l.tree.gtree ((T l.tree.gtree).parent l.element) (r + 1)) := by
  have hlow := h.low
  have hhigh := h.high
  have hge := h.ge
  obtain ⟨m, h1, h2, h3⟩ := extreme_spec (hS _) (h.ordered H) h.elem h0 (Or.inl rfl)
  obtain ⟨_, hm, _⟩ := h2 m le_rfl
  obtain ⟨hm1, hm2, _⟩ := rd_some hm
  rw [h.index] at h1 h2 h3 hm1 hm2
  refine ⟨j + m, ?_, by omega, by omega, ?_, ?_⟩
  · rw [← h.index] at h1
    rw [h1, h.index]
    congr 1
    omega
  · intro i hi1 hi2
    have := h2 (i - j) (by omega)
    rw [show (j : Int) - base + 1 * ((i - j : Nat) : Int) = (i : Int) - base by omega] at this
    exact (h.child_iff (by omega) (by omega)).1 this
  · rcases Nat.eq_or_lt_of_le (show j + m + 1 ≤ hi by omega) with hc | hc
    · exact Or.inl hc
    · right
      rw [show (j : Int) - base + 1 * ((m + 1 : Nat) : Int) = ((j + m + 1 : Nat) : Int) - base by omega] at h3
      exact fun hs => h3 ((h.child_iff (by omega) (by omega)).2 hs)

end Located.At

end Local

end T8.Pfc
