/-
Lemmas on the messages with elements: what is packed, and how it is unpacked.
-/
import Verif.Lemmas.PartitionRange
import Verif.Spec.PartitionForest

namespace T8.Partition
open T8.Spec T8.Offset ElementPartition

/-! ### Slices -/

theorem slice_append {α : Type} (l m : List α) (a b : Nat) :
    slice (l ++ m) a b = slice l a b ++ slice m (a - l.length) (b - l.length) := by
  rw [slice, slice, slice, List.drop_append, List.take_append]
  congr 2
  rw [List.length_drop]
  omega

theorem slice_length {α : Type} (l : List α) (a b : Nat) : (slice l a b).length = min b l.length - a := by
  rw [slice, List.length_take, List.length_drop]; omega

theorem slice_self {α : Type} (l : List α) {b : Nat} (hb : l.length ≤ b) : slice l 0 b = l := by
  rw [slice, List.drop_zero, List.take_of_length_le (by omega)]

theorem slice_empty {α : Type} (l : List α) {a b : Nat} (h : b ≤ a ∨ l.length ≤ a) : slice l a b = [] := by
  rw [← List.length_eq_zero_iff, slice_length]; omega

theorem slice_cat {α : Type} (l : List α) {a b c : Nat} (h1 : a ≤ b) (h2 : b ≤ c) : slice l a b ++ slice l b c = slice l a c := by
  have e : slice l b c = ((l.drop a).drop (b - a)).take (c - b) := by
    rw [slice, List.drop_drop, show a + (b - a) = b by omega]
  rw [e, slice, slice, show c - a = (b - a) + (c - b) by omega, List.take_add]

theorem slice_getElem? {α : Type} (l : List α) (a b i : Nat) (h : a + i < b) : (slice l a b)[i]? = l[a + i]? := by
  rw [slice, List.getElem?_take_of_lt (by omega), List.getElem?_drop]

theorem slice_map {α β : Type} (f : α → β) (l : List α) (a b : Nat) : slice (l.map f) a b = (slice l a b).map f := by
  rw [slice, slice, List.map_take, List.map_drop]

/-! ### Sequences of trees -/

theorem treesSeq_append (g : Int) (ts us : List Tree) :
    treesSeq g (ts ++ us) = treesSeq g ts ++ treesSeq (g + ts.length) us := by
  induction ts generalizing g with
  | nil => simp [treesSeq]
  | cons t ts ih =>
    rw [List.cons_append, treesSeq, treesSeq, ih, List.append_assoc, List.length_cons]
    congr 3; push_cast; omega

/-- Number of leaves of a list of trees. -/
def total (ts : List Tree) : Nat := (ts.map (fun t => t.leaves.length)).sum

theorem treesSeq_length (g : Int) (ts : List Tree) : (treesSeq g ts).length = total ts := by
  induction ts generalizing g with
  | nil => rfl
  | cons t ts ih => rw [treesSeq, List.length_append, ih, List.length_map]; simp [total]

theorem total_append (ts us : List Tree) : total (ts ++ us) = total ts + total us := by simp [total]

/-- The index of the first leaf of tree `i`. -/
def offs (ts : List Tree) (i : Nat) : Nat := total (ts.take i)

theorem offs_succ {ts : List Tree} {i : Nat} {t : Tree} (h : ts[i]? = some t) : offs ts (i + 1) = offs ts i + t.leaves.length := by
  rw [offs, offs, List.take_add_one, h, total_append]; simp [total]

theorem offs_mono (ts : List Tree) {i j : Nat} (h : i ≤ j) : offs ts i ≤ offs ts j := by
  rw [offs, offs, show j = i + (j - i) by omega, List.take_add, total_append]; omega

theorem offs_all {ts : List Tree} {i : Nat} (h : ts.length ≤ i) : offs ts i = total ts := by
  rw [offs, List.take_of_length_le h]

/-- The part of tree `i` between the leaves `x` and `y`. -/
def seg (ts : List Tree) (x y i : Nat) (t : Tree) : Tree :=
  { t with leaves := slice t.leaves (x - offs ts i) (y - offs ts i) }

/-- The parts of the trees from `i` on, `n` of them. -/
def segs (ts : List Tree) (x y : Nat) : (n i : Nat) → List Tree
  | 0, _ => []
  | n + 1, i => (ts[i]?.map (seg ts x y i)).toList ++ segs ts x y n (i + 1)

theorem segs_length {ts : List Tree} {x y n i : Nat} (h : i + n ≤ ts.length) : (segs ts x y n i).length = n := by
  induction n generalizing i with
  | zero => rfl
  | succ n ih =>
    rw [segs, List.length_append, ih (by omega), List.getElem?_eq_getElem (by omega)]
    simp; omega

/-- The parts of the trees are the part of the sequence. -/
theorem segs_seq {ts : List Tree} {g : Int} {x y n i : Nat} (h : i + n ≤ ts.length) (hxy : x ≤ y) (hx : offs ts i ≤ x)
    (hy : y ≤ offs ts (i + n)) : treesSeq (g + i) (segs ts x y n i) = slice (treesSeq g ts) x y := by
  have key : ∀ n i, i + n ≤ ts.length →
      treesSeq (g + i) (segs ts x y n i) = slice (treesSeq (g + i) ((ts.drop i).take n)) (x - offs ts i) (y - offs ts i) := by
    intro n
    induction n with
    | zero => intro i _; simp [segs, treesSeq, slice]
    | succ n ih =>
      intro i hi
      have hlt : i < ts.length := by omega
      have hg : ts[i]? = some ts[i] := List.getElem?_eq_getElem hlt
      rw [segs, hg, List.drop_eq_getElem_cons hlt, List.take_succ_cons]
      simp only [Option.map_some, Option.toList_some, List.cons_append, List.nil_append]
      rw [treesSeq, treesSeq, slice_append, List.length_map, Nat.sub_sub, Nat.sub_sub, ← offs_succ hg,
        show g + (i : Int) + 1 = g + ((i + 1 : Nat) : Int) by push_cast; omega, ← ih (i + 1) (by omega), slice_map]
      rfl
  rw [key n i h]
  have e : ts = ts.take i ++ ((ts.drop i).take n ++ ts.drop (i + n)) := by
    rw [← List.drop_drop, List.take_append_drop, List.take_append_drop]
  have l1 : (treesSeq g (ts.take i)).length = offs ts i := treesSeq_length _ _
  have l2 : (treesSeq (g + i) ((ts.drop i).take n)).length = offs ts (i + n) - offs ts i := by
    rw [treesSeq_length, offs, offs, List.take_add, total_append]; omega
  have e2 : treesSeq g ts = treesSeq g (ts.take i) ++ (treesSeq (g + i) ((ts.drop i).take n) ++
      treesSeq (g + i + n) (ts.drop (i + n))) := by
    conv_lhs => rw [e]
    rw [treesSeq_append, treesSeq_append]
    have l3 : (ts.take i).length = i := by rw [List.length_take]; omega
    have l4 : ((ts.drop i).take n).length = n := by rw [List.length_take, List.length_drop]; omega
    rw [l3, l4]
  rw [e2, slice_append, slice_empty (treesSeq g _) (Or.inr (by omega)), List.nil_append, slice_append, l1, l2,
    slice_empty (treesSeq (g + i + n) _) (Or.inl (by omega)), List.append_nil]

/-! ### Messages -/

/-- The bytes of the leaves of a list of trees. -/
def bytesOf (ts : List Tree) : Bytes := (ts.map (fun t => t.leaves.flatten)).flatten

def infosOf (g : Int) : List Tree → List Info
  | [] => []
  | t :: ts => ⟨g, t.eclass, t.leaves.length⟩ :: infosOf (g + 1) ts

/-- All leaves have the size that belongs to their class, and no tree is empty. -/
def Sized (size : Nat → Nat) (ts : List Tree) : Prop :=
  ∀ t ∈ ts, t.leaves ≠ [] ∧ ∀ b ∈ t.leaves, b.length = size t.eclass

/-- The message contains the trees `ts`, the first of which has the number `g`. -/
structure IsMsg (size : Nat → Nat) (m : Message) (g : Int) (ts : List Tree) : Prop where
  num : m.numTrees = ts.length
  infos : m.infos = infosOf g ts
  bytes : m.bytes = bytesOf ts
  ne : ts ≠ []
  sized : Sized size ts

theorem flatten_length {n : Nat} {l : List Bytes} (h : ∀ b ∈ l, b.length = n) : l.flatten.length = l.length * n := by
  induction l with
  | nil => simp
  | cons b l ih =>
    rw [List.flatten_cons, List.length_append, ih (fun b hb => h b (List.mem_cons_of_mem _ hb)), h b List.mem_cons_self,
      List.length_cons, Nat.succ_mul]; omega

variable {size : Nat → Nat} {f : Forest}

theorem WF.getElem (h : WF size f) {i : Nat} (hi : i < f.trees.length) :
    ∃ t, f.trees[i]? = some t ∧ t.elementsOffset = (offs f.trees i : Int) ∧ 0 < t.leaves.length ∧
      offs f.trees (i + 1) = offs f.trees i + t.leaves.length ∧ ∀ b ∈ t.leaves, b.length = size t.eclass := by
  have hg : f.trees[i]? = some f.trees[i] := List.getElem?_eq_getElem hi
  refine ⟨f.trees[i], hg, ?_, ?_, offs_succ hg, h.sizes _ (List.getElem_mem _)⟩
  · rw [h.offsets i _ hg, treesSeq_length]; rfl
  · exact List.length_pos_iff.2 (h.nonempty _ (List.getElem_mem _))

theorem treeFirstLast_spec {t : Tree} {ts : List Tree} {i x y ct : Nat} (ht : ts[i]? = some t)
    (hoff : t.elementsOffset = (offs ts i : Int)) (hi : ct ≤ i) (h1 : offs ts ct ≤ x) (h2 : ct < i → x ≤ offs ts i) (hxy : x < y)
    (h3 : offs ts i < y) (h4 : x < offs ts i + t.leaves.length) :
    treeFirstLast t i x ((y : Int) - 1) ct =
      (((x - offs ts i : Nat) : Int), ((x - offs ts i : Nat) : Int) + (seg ts x y i t).leaves.length - 1,
        decide (y = offs ts i + t.leaves.length)) := by
  have hl : (seg ts x y i t).leaves.length = min (y - offs ts i) t.leaves.length - (x - offs ts i) := slice_length _ _ _
  rw [treeFirstLast, hl, hoff]
  refine Prod.ext ?_ (Prod.ext ?_ ?_)
  · show (if (i : Int) = (ct : Int) then _ else _) = _
    split
    · have : i = ct := by omega
      subst this
      omega
    · have := h2 (by omega)
      omega
  · dsimp only
    split <;> omega
  · show decide _ = decide _
    rw [decide_eq_decide]; omega

/-- Process `f` has the tree `ct` when the leaf `x` is the next to be sent. -/
def Cur (f : Forest) (ct : Int) (x : Nat) : Prop :=
  ∃ i : Nat, ct = i ∧ i ≤ f.trees.length ∧ offs f.trees i ≤ x ∧ (x < offs f.trees (i + 1) ∨ x = total f.trees)

theorem bytesOf_append (ts us : List Tree) : bytesOf (ts ++ us) = bytesOf ts ++ bytesOf us := by simp [bytesOf]

theorem segs_succ_right (ts : List Tree) (x y n i : Nat) :
    segs ts x y (n + 1) i = segs ts x y n i ++ (ts[i + n]?.map (seg ts x y (i + n))).toList := by
  induction n generalizing i with
  | zero => simp [segs]
  | succ n ih =>
    rw [segs, ih (i + 1), segs, List.append_assoc, show i + 1 + n = i + (n + 1) by omega]

theorem seg_bytes {t : Tree} {ts : List Tree} {i x y : Nat} (hs : ∀ b ∈ t.leaves, b.length = size t.eclass) :
    (seg ts x y i t).leaves.flatten.length = (seg ts x y i t).leaves.length * size t.eclass :=
  flatten_length (fun b hb => hs b (List.mem_of_mem_drop (List.mem_of_mem_take hb)))

/-- The first loop. -/
theorem fillCount_spec (h : WF size f) {ct x y : Nat} (hct : offs f.trees ct ≤ x) (hct' : x < offs f.trees (ct + 1))
    (hxy : x < y) (hy : y ≤ total f.trees) :
    ∃ n, 0 < n ∧ ct + n ≤ f.trees.length ∧ y ≤ offs f.trees (ct + n) ∧ offs f.trees (ct + n - 1) < y ∧
      whileO (fun s : FillState => some (decide (s.currentElement ≤ (y : Int) - 1)))
        (fillCountBody size f ct x ((y : Int) - 1)) ⟨x, ct, 0, 0, false⟩ =
      some ⟨y, ((ct + n : Nat) : Int), n, ((bytesOf (segs f.trees x y n ct)).length : Int), decide (y = offs f.trees (ct + n))⟩ := by
  let I : FillState → Prop := fun s => ∃ n : Nat, ct + n ≤ f.trees.length ∧ s.treeId = ((ct + n : Nat) : Int) ∧
    s.currentElement = ((min y (max x (offs f.trees (ct + n))) : Nat) : Int) ∧
    s.numTrees = n ∧ s.elementAlloc = ((bytesOf (segs f.trees x y n ct)).length : Int) ∧
    (0 < n → offs f.trees (ct + n - 1) < y ∧ s.lastIsLast = decide (y = offs f.trees (ct + n)))
  have hlt : ct < f.trees.length := by
    by_contra hc
    rw [offs_all (by omega)] at hct
    omega
  have hinit : I ⟨x, ct, 0, 0, false⟩ := by
    refine ⟨0, by omega, rfl, ?_, rfl, by simp [segs, bytesOf], by omega⟩
    show (x : Int) = _
    rw [Nat.add_zero]; omega
  have key := whileO_spec (cond := fun s : FillState => some (decide (s.currentElement ≤ (y : Int) - 1)))
        (body := fillCountBody size f ct x ((y : Int) - 1)) I (fun s => f.trees.length - s.treeId.toNat) ?_ _ hinit
  · obtain ⟨s, hw, ⟨n, i1, i2, i3, i4, i5, i6⟩, hstop⟩ := key
    have hstop' : ¬ s.currentElement ≤ (y : Int) - 1 := by simpa using hstop
    have hyo : y ≤ offs f.trees (ct + n) := by omega
    have hn : 0 < n := by
      rcases Nat.eq_zero_or_pos n with rfl | h
      · rw [Nat.add_zero] at hyo; omega
      · exact h
    obtain ⟨j1, j2⟩ := i6 hn
    refine ⟨n, hn, i1, hyo, j1, ?_⟩
    rw [hw]
    obtain ⟨s1, s2, s3, s4, s5⟩ := s
    simp only at i2 i3 i4 i5 j2
    rw [i2, i3, i4, i5, j2]
    congr 2; omega
  · rintro s ⟨n, i1, i2, i3, i4, i5, i6⟩
    by_cases hgo : s.currentElement ≤ (y : Int) - 1
    · refine Or.inr ⟨by rw [decide_eq_true hgo], ?_⟩
      have hlen : ct + n < f.trees.length := by
        by_contra hc
        rw [offs_all (by omega)] at i3
        omega
      obtain ⟨t, ht, hto, htp, hts, hsz⟩ := h.getElem hlen
      have hoy : offs f.trees (ct + n) < y := by omega
      have hmo : 0 < n → offs f.trees (ct + 1) ≤ offs f.trees (ct + n) := fun hn => offs_mono _ (by omega)
      have hx : x < offs f.trees (ct + n + 1) := hct'.trans_le (offs_mono _ (by omega))
      have htf := treeFirstLast_spec (y := y) ht hto (by omega : ct ≤ ct + n) hct (fun hc => by have := hmo (by omega); omega) hxy hoy
        (by omega)
      have hl : (seg f.trees x y (ct + n) t).leaves.length =
        min (y - offs f.trees (ct + n)) t.leaves.length - (x - offs f.trees (ct + n)) := slice_length _ _ _
      generalize hL : (seg f.trees x y (ct + n) t).leaves.length = L at htf hl
      refine ⟨⟨s.currentElement + L, s.treeId + 1, s.numTrees + 1, s.elementAlloc + L * size t.eclass,
        decide (y = offs f.trees (ct + n) + t.leaves.length)⟩, ?_, ?_, ?_⟩
      · rw [fillCountBody, i2, rd, if_neg (by omega), Int.toNat_natCast, ht]
        simp only [Option.bind_eq_bind, Option.bind_some]
        rw [htf]
        dsimp only
        have e : ((x - offs f.trees (ct + n) : Nat) : Int) + L - 1 - ((x - offs f.trees (ct + n) : Nat) : Int) + 1 = L := by omega
        rw [e, show assertO (0 ≤ (L : Int)) = some () from assertO_true (by omega), Option.bind_some]
      · refine ⟨n + 1, by omega, ?_, ?_, ?_, ?_, ?_⟩
        · show s.treeId + 1 = _; rw [i2]; push_cast; omega
        · show s.currentElement + L = _
          rw [i3, show ct + (n + 1) = ct + n + 1 by omega, hts, hl]
          rcases Nat.eq_zero_or_pos n with rfl | hn
          · rw [Nat.add_zero] at *
            omega
          · have := hmo hn
            omega
        · show s.numTrees + 1 = _; rw [i4]; push_cast; rfl
        · show s.elementAlloc + _ = _
          rw [i5, segs_succ_right, bytesOf_append, List.length_append, ht]
          simp only [Option.map_some, Option.toList_some, bytesOf, List.map_cons, List.map_nil, List.flatten_cons,
            List.flatten_nil, List.append_nil]
          rw [seg_bytes hsz, hL]
          push_cast; rfl
        · intro _
          refine ⟨by rw [show ct + (n + 1) - 1 = ct + n by omega]; exact hoy, ?_⟩
          rw [show ct + (n + 1) = ct + n + 1 by omega, hts]
      · dsimp only; rw [i2]; omega
    · exact Or.inl (by rw [decide_eq_false hgo])

/-- The second loop. -/
theorem fillTrees_spec (h : WF size f) {ct x y n : Nat} (hct : offs f.trees ct ≤ x) (hct' : x < offs f.trees (ct + 1))
    (hxy : x < y) (hn : ct + n ≤ f.trees.length) (hlast : offs f.trees (ct + n - 1) < y) :
    ∀ (left k : Nat) (w z : Bytes), k + left = n → z.length = (bytesOf (segs f.trees x y left (ct + k))).length →
      fillTrees size f ct x ((y : Int) - 1) left k w.length (w ++ z) =
        some (infosOf (ct + k + f.firstLocalTree) (segs f.trees x y left (ct + k)),
          w ++ bytesOf (segs f.trees x y left (ct + k))) := by
  intro left
  induction left with
  | zero =>
    intro k w z hk hz
    have : z = [] := by rw [← List.length_eq_zero_iff, hz]; rfl
    subst this
    rfl
  | succ left ih =>
    intro k w z hk hz
    obtain ⟨t, ht, hto, htp, hts, hsz⟩ := h.getElem (i := ct + k) (by omega)
    have hoy : offs f.trees (ct + k) < y := (offs_mono _ (by omega)).trans_lt hlast
    have hmo : 0 < k → offs f.trees (ct + 1) ≤ offs f.trees (ct + k) := fun hn => offs_mono _ (by omega)
    have hx : x < offs f.trees (ct + k + 1) := hct'.trans_le (offs_mono _ (by omega))
    have htf := treeFirstLast_spec (y := y) ht hto (by omega : ct ≤ ct + k) hct (fun hc => by have := hmo (by omega); omega) hxy hoy
      (by omega)
    have hl : (seg f.trees x y (ct + k) t).leaves.length =
      min (y - offs f.trees (ct + k)) t.leaves.length - (x - offs f.trees (ct + k)) := slice_length _ _ _
    have hb := seg_bytes (ts := f.trees) (x := x) (y := y) (i := ct + k) hsz
    have hsl : (seg f.trees x y (ct + k) t).leaves =
        (t.leaves.drop (x - offs f.trees (ct + k))).take (seg f.trees x y (ct + k) t).leaves.length := by
      rw [hl]
      show (t.leaves.drop _).take _ = _
      rw [List.take_eq_take_iff, List.length_drop]
      omega
    generalize hL : (seg f.trees x y (ct + k) t).leaves.length = L at htf hl hb hsl
    have hsegs : segs f.trees x y (left + 1) (ct + k) = seg f.trees x y (ct + k) t :: segs f.trees x y left (ct + (k + 1)) := by
      rw [segs, ht]; rfl
    have hby : bytesOf (segs f.trees x y (left + 1) (ct + k)) =
        (seg f.trees x y (ct + k) t).leaves.flatten ++ bytesOf (segs f.trees x y left (ct + (k + 1))) := by
      rw [hsegs]; rfl
    rw [hby, List.length_append] at hz
    have hz1 : z = z.take (L * size t.eclass) ++ z.drop (L * size t.eclass) := (List.take_append_drop _ _).symm
    rw [fillTrees, show (k : Int) + (ct : Int) = ((ct + k : Nat) : Int) by omega, rd, if_neg (by omega), Int.toNat_natCast, ht]
    simp only [Option.bind_eq_bind, Option.bind_some]
    rw [htf]
    dsimp only
    have e : ((x - offs f.trees (ct + k) : Nat) : Int) + L - 1 - ((x - offs f.trees (ct + k) : Nat) : Int) + 1 = L := by omega
    have hmem : memcpy (w ++ z) w.length (seg f.trees x y (ct + k) t).leaves.flatten =
        some ((w ++ (seg f.trees x y (ct + k) t).leaves.flatten) ++ z.drop (L * size t.eclass)) := by
      rw [memcpy, if_pos (by rw [List.length_append]; omega), List.take_left, List.drop_append, hb,
        List.drop_of_length_le (by omega), List.nil_append, show w.length + L * size t.eclass - w.length = L * size t.eclass by omega]
    have hrec := ih (k + 1) (w ++ (seg f.trees x y (ct + k) t).leaves.flatten) (z.drop (L * size t.eclass)) (by omega)
      (by rw [List.length_drop]; omega)
    have hpos : ((w ++ (seg f.trees x y (ct + k) t).leaves.flatten).length : Int) = (w.length : Int) + L * size t.eclass := by
      rw [List.length_append, hb]; push_cast; rfl
    rw [e, show assertO (0 ≤ (L : Int)) = some () from assertO_true (by omega), Option.bind_some, if_pos (by omega),
      show assertO (0 ≤ ((x - offs f.trees (ct + k) : Nat) : Int) ∧
        ((x - offs f.trees (ct + k) : Nat) : Int) + (L : Int) ≤ (t.leaves.length : Int)) = some () from assertO_true (by omega),
      Option.bind_some, Int.toNat_natCast, Int.toNat_natCast, Int.toNat_natCast, ← hsl, hmem, Option.bind_some, ← hpos,
      show (k : Int) + 1 = ((k + 1 : Nat) : Int) by omega, hrec, Option.bind_some, hsegs]
    congr 1
    refine Prod.ext ?_ ?_
    · show _ :: _ = infosOf _ _
      rw [infosOf, hL, show (ct : Int) + (k : Int) + f.firstLocalTree + 1 = (ct : Int) + ((k + 1 : Nat) : Int) + f.firstLocalTree by omega,
        show (ct : Int) + (k : Int) + f.firstLocalTree = ((ct + k : Nat) : Int) + f.firstLocalTree by omega]
      rfl
    · show _ = w ++ bytesOf _
      rw [← hsegs, hby, List.append_assoc]

theorem segs_sized (h : WF size f) {ct x y n : Nat} (hct' : x < offs f.trees (ct + 1))
    (hxy : x < y) (hn : ct + n ≤ f.trees.length) (hlast : offs f.trees (ct + n - 1) < y) :
    ∀ (left k : Nat), k + left = n → Sized size (segs f.trees x y left (ct + k)) := by
  intro left
  induction left with
  | zero => intro k _ t ht; simp [segs] at ht
  | succ left ih =>
    intro k hk t' ht'
    obtain ⟨t, ht, hto, htp, hts, hsz⟩ := h.getElem (i := ct + k) (by omega)
    rw [segs, ht] at ht'
    simp only [Option.map_some, Option.toList_some, List.cons_append, List.nil_append, List.mem_cons] at ht'
    rcases ht' with rfl | h'
    · have hoy : offs f.trees (ct + k) < y := (offs_mono _ (by omega)).trans_lt hlast
      have hx : x < offs f.trees (ct + k + 1) := hct'.trans_le (offs_mono _ (by omega))
      have hl : (seg f.trees x y (ct + k) t).leaves.length =
        min (y - offs f.trees (ct + k)) t.leaves.length - (x - offs f.trees (ct + k)) := slice_length _ _ _
      refine ⟨?_, fun b hb => hsz b (List.mem_of_mem_drop (List.mem_of_mem_take hb))⟩
      rw [← List.length_pos_iff, hl]
      omega
    · exact ih (k + 1) (by omega) t' h'

/-- What `fillBuffer` packs. -/
theorem fillBuffer_spec (h : WF size f) {ct : Int} {x y : Nat} (hc : Cur f ct x) (hxy : x < y) (hy : y ≤ total f.trees) :
    ∃ m ct', fillBuffer size f ct x ((y : Int) - 1) = some (m, ct') ∧
      (∃ g ts, IsMsg size m g ts ∧ treesSeq g ts = slice f.seq x y) ∧ Cur f ct' y := by
  obtain ⟨i, rfl, hi, h1, h2⟩ := hc
  have h2' : x < offs f.trees (i + 1) := by omega
  obtain ⟨n, n1, n2, n3, n4, n5⟩ := fillCount_spec h h1 h2' hxy hy
  have hft := fillTrees_spec h h1 h2' hxy n2 n4 n 0 [] (List.replicate (bytesOf (segs f.trees x y n i)).length 0) (by omega)
    (by rw [List.length_replicate, Nat.add_zero])
  have hsz := segs_sized h h2' hxy n2 n4 n 0 (by omega)
  rw [Nat.add_zero] at hft hsz
  simp only [List.nil_append, List.length_nil] at hft
  refine ⟨⟨n, infosOf (f.firstLocalTree + i) (segs f.trees x y n i), bytesOf (segs f.trees x y n i)⟩,
    (i : Int) + ((n : Int) - 1 + if decide (y = offs f.trees (i + n)) = true then 1 else 0), ?_, ?_, ?_⟩
  · rw [fillBuffer, n5]
    simp only [Option.bind_eq_bind, Option.bind_some]
    rw [Int.toNat_natCast, Int.toNat_natCast]
    have e := hft
    rw [Nat.cast_zero, add_zero, add_comm (i : Int)] at e
    rw [e, Option.bind_some]
  · refine ⟨f.firstLocalTree + i, segs f.trees x y n i, ⟨?_, rfl, rfl, ?_, hsz⟩, ?_⟩
    · rw [segs_length n2]
    · rw [← List.length_pos_iff, segs_length n2]; exact n1
    · exact segs_seq n2 hxy.le h1 n3
  · by_cases hl : y = offs f.trees (i + n)
    · rw [decide_eq_true hl, if_pos rfl]
      refine ⟨i + n, by push_cast; omega, n2, hl.ge, ?_⟩
      rcases Nat.lt_or_ge (i + n) f.trees.length with hlt | hge
      · obtain ⟨t, _, _, htp, hts, _⟩ := h.getElem hlt
        left; omega
      · right; rw [hl, offs_all hge]
    · rw [decide_eq_false hl, if_neg (by simp)]
      refine ⟨i + n - 1, by push_cast; omega, by omega, n4.le, Or.inl ?_⟩
      rw [show i + n - 1 + 1 = i + n by omega]; omega

/-! ### Receiving -/

theorem chunks_flatten {n : Nat} {l : List Bytes} (rest : Bytes) (h : ∀ b ∈ l, b.length = n) :
    chunks n l.length (l.flatten ++ rest) = l := by
  induction l with
  | nil => rfl
  | cons b l ih =>
    have hb := h b List.mem_cons_self
    rw [List.length_cons, chunks, List.flatten_cons, List.append_assoc, ← hb, List.take_left, List.drop_left, hb,
      ih (fun b hb => h b (List.mem_cons_of_mem _ hb))]

theorem bytesOf_cons (t : Tree) (ts : List Tree) : bytesOf (t :: ts) = t.leaves.flatten ++ bytesOf ts := rfl

theorem infosOf_getElem? (g : Int) (ts : List Tree) (i : Nat) :
    (infosOf g ts)[i]? = ts[i]?.map (fun t => ⟨g + i, t.eclass, t.leaves.length⟩) := by
  induction ts generalizing g i with
  | nil => simp [infosOf]
  | cons t ts ih =>
    cases i with
    | zero => simp [infosOf]
    | succ i =>
      rw [infosOf, List.getElem?_cons_succ, List.getElem?_cons_succ, ih]
      congr 2; funext t; congr 1; push_cast; omega

/-- Appending a tree. -/
theorem WF.snoc (h : WF size f) (t : Tree) (ht : t.leaves ≠ []) (hs : ∀ b ∈ t.leaves, b.length = size t.eclass)
    (ho : t.elementsOffset = f.localNum) :
    WF size { f with trees := f.trees ++ [t], localNum := f.localNum + t.leaves.length,
                     lastLocalTree := f.lastLocalTree + 1 } := by
  have hl := h.last
  have hn := h.num
  have hseq : treesSeq f.firstLocalTree (f.trees ++ [t]) = f.seq ++ t.leaves.map (fun b => (f.lastLocalTree + 1, t.eclass, b)) := by
    rw [treesSeq_append, Forest.seq]
    simp only [treesSeq, List.append_nil]
    rw [show f.firstLocalTree + (f.trees.length : Int) = f.lastLocalTree + 1 by omega]
  refine ⟨?_, ?_, ?_, ?_, ?_⟩
  · show f.lastLocalTree + 1 = _
    rw [hl, List.length_append]; push_cast; simp; omega
  · show _ = ((treesSeq f.firstLocalTree (f.trees ++ [t])).length : Int)
    rw [hseq, List.length_append, List.length_map, hn]; push_cast; rfl
  · intro t' ht'
    rcases List.mem_append.1 ht' with h' | h'
    · exact h.nonempty t' h'
    · rw [List.mem_singleton] at h'; subst h'; exact ht
  · intro i t' ht'
    show _ = ((treesSeq f.firstLocalTree ((f.trees ++ [t]).take i)).length : Int)
    have ht'' : (f.trees ++ [t])[i]? = some t' := ht'
    rcases Nat.lt_or_ge i f.trees.length with hi | hi
    · rw [List.getElem?_append_left hi] at ht''
      rw [List.take_append_of_le_length hi.le]
      exact h.offsets i t' ht''
    · have : i = f.trees.length := by
        have := (List.getElem?_eq_some_iff.1 ht'').1
        rw [List.length_append, List.length_singleton] at this
        omega
      subst this
      rw [List.getElem?_append_right le_rfl, Nat.sub_self] at ht''
      obtain rfl : t = t' := by simpa using ht''
      rw [List.take_left, ho, hn]; rfl
  · intro t' ht'
    rcases List.mem_append.1 ht' with h' | h'
    · exact h.sizes t' h'
    · rw [List.mem_singleton] at h'; subst h'; exact hs

theorem WF.next_offset (h : WF size f) :
    (if f.lastLocalTree ≥ f.firstLocalTree then
        f.trees.getLast?.bind fun t => some (t.elementsOffset + (t.leaves.length : Int)) else some 0) = some f.localNum := by
  have hl := h.last
  have hn := h.num
  split
  · have hpos : 0 < f.trees.length := by omega
    obtain ⟨t, h1, h2, h3, h4, _⟩ := h.getElem (i := f.trees.length - 1) (by omega)
    rw [List.getLast?_eq_getElem?, h1, Option.bind_some]
    rw [show f.trees.length - 1 + 1 = f.trees.length by omega, offs_all le_rfl] at h4
    rw [h2, hn, Forest.seq, treesSeq_length, h4]; push_cast; rfl
  · have : f.trees = [] := by rw [← List.length_eq_zero_iff]; omega
    rw [hn, Forest.seq, this]; rfl

/-- Receiving new trees. -/
theorem recvTrees_new {m : Message} {g : Int} {ts : List Tree} (hm : IsMsg size m g ts) :
    ∀ (left k sz : Nat) (f : Forest), k + left = ts.length → WF size f → f.lastLocalTree + 1 = g + k →
      ∃ f', recvTrees size m left k (bytesOf (ts.take k)).length sz f = some f' ∧ WF size f' ∧
        f'.firstLocalTree = f.firstLocalTree ∧ f'.seq = f.seq ++ treesSeq (g + k) (ts.drop k) ∧
        f'.lastLocalTree = g + ts.length - 1 := by
  intro left
  induction left with
  | zero =>
    intro k sz f hk hf hg
    refine ⟨f, rfl, hf, rfl, ?_, by omega⟩
    rw [List.drop_of_length_le (by omega)]; simp [treesSeq]
  | succ left ih =>
    intro k sz f hk hf hg
    have hlt : k < ts.length := by omega
    have ht : ts[k]? = some ts[k] := List.getElem?_eq_getElem hlt
    obtain ⟨hne, hsz⟩ := hm.sized ts[k] (List.getElem_mem _)
    have hinfo : m.infos[k]? = some ⟨g + k, ts[k].eclass, ts[k].leaves.length⟩ := by rw [hm.infos, infosOf_getElem?, ht]; rfl
    have hdrop : m.bytes.drop (bytesOf (ts.take k)).length = ts[k].leaves.flatten ++ bytesOf (ts.drop (k + 1)) := by
      have e : ts = ts.take k ++ ts[k] :: ts.drop (k + 1) := by rw [← List.drop_eq_getElem_cons hlt, List.take_append_drop]
      rw [hm.bytes]
      conv_lhs => rw [e]
      rw [bytesOf_append, bytesOf_cons]
      have : (bytesOf (ts.take k)).length = (bytesOf (List.take k (List.take k ts ++ ts[k] :: List.drop (k + 1) ts))).length := by
        rw [← e]
      rw [← this, List.drop_left]
    have hlen : (bytesOf (ts.take k)).length + ts[k].leaves.length * size ts[k].eclass ≤ m.bytes.length := by
      have := congrArg List.length hdrop
      rw [List.length_drop, List.length_append, flatten_length hsz] at this
      have h3 : 0 < (bytesOf (ts.take k)).length + 1 := by omega
      rcases Nat.lt_or_ge m.bytes.length (bytesOf (ts.take k)).length with hc | hc
      · have h4 : bytesOf ts = bytesOf (ts.take k) ++ bytesOf (ts.drop k) := by
          rw [← bytesOf_append, List.take_append_drop]
        rw [hm.bytes, h4, List.length_append] at hc
        omega
      · omega
    have hch : chunks (size ts[k].eclass) ts[k].leaves.length (m.bytes.drop (bytesOf (ts.take k)).length) = ts[k].leaves := by
      rw [hdrop]; exact chunks_flatten _ hsz
    have hnb : (bytesOf (ts.take k)).length + size ts[k].eclass * ts[k].leaves.length = (bytesOf (ts.take (k + 1))).length := by
      rw [List.take_add_one, ht, bytesOf_append, List.length_append]
      show _ = _ + (bytesOf [ts[k]]).length
      rw [bytesOf_cons, List.length_append, flatten_length hsz, Nat.mul_comm]; rfl
    rw [recvTrees, hinfo]
    simp only [Option.bind_eq_bind, Option.bind_some]
    rw [show assertO (g + (k : Int) ≥ f.lastLocalTree) = some () from assertO_true (by omega), Option.bind_some,
      if_pos (by omega), hf.next_offset]
    simp only [Option.bind_some, Int.toNat_natCast]
    rw [show assertO ((bytesOf (ts.take k)).length + ts[k].leaves.length * size ts[k].eclass ≤ m.bytes.length) = some () from
      assertO_true hlen]
    simp only [Option.bind_some]
    rw [hch, hnb]
    obtain ⟨f', g1, g2, g3, g4, g5⟩ := ih (k + 1) (size ts[k].eclass) _ (by omega)
      (hf.snoc ⟨ts[k].eclass, f.localNum, ts[k].leaves⟩ hne hsz rfl) (by show f.lastLocalTree + 1 + 1 = _; push_cast; omega)
    refine ⟨f', ?_, g2, g3, ?_, g5⟩
    · rw [← g1, ← hg]
    · rw [g4, List.drop_eq_getElem_cons hlt, treesSeq, ← List.append_assoc]
      have : (Forest.seq { f with
            trees := f.trees ++ [⟨ts[k].eclass, f.localNum, ts[k].leaves⟩], localNum := f.localNum + ts[k].leaves.length,
            lastLocalTree := f.lastLocalTree + 1 }) = f.seq ++ ts[k].leaves.map (fun b => (g + k, ts[k].eclass, b)) := by
        rw [Forest.seq, treesSeq_append, Forest.seq]
        simp only [treesSeq, List.append_nil]
        have := hf.last
        rw [show f.firstLocalTree + (f.trees.length : Int) = g + k by omega]
      rw [this]
      congr 2
      push_cast; omega

/-- Removing the last tree. -/
theorem WF.init (h : WF size f) {ts : List Tree} {t : Tree} (ht : f.trees = ts ++ [t]) :
    WF size { f with trees := ts, localNum := f.localNum - t.leaves.length, lastLocalTree := f.lastLocalTree - 1 } := by
  have hl := h.last
  have hn := h.num
  rw [ht, List.length_append, List.length_singleton] at hl
  have hseq : f.seq.length = (treesSeq f.firstLocalTree ts).length + t.leaves.length := by
    rw [Forest.seq, ht, treesSeq_append, List.length_append]
    simp [treesSeq]
  refine ⟨?_, ?_, ?_, ?_, ?_⟩
  · show f.lastLocalTree - 1 = f.firstLocalTree + (ts.length : Int) - 1
    push_cast at hl; omega
  · show f.localNum - _ = ((treesSeq f.firstLocalTree ts).length : Int)
    omega
  · intro t' ht'; exact h.nonempty t' (by rw [ht]; exact List.mem_append_left _ ht')
  · intro i t' ht'
    have ht'' : ts[i]? = some t' := ht'
    have hi := (List.getElem?_eq_some_iff.1 ht'').1
    show _ = ((treesSeq f.firstLocalTree (ts.take i)).length : Int)
    rw [h.offsets i t' (by rw [ht, List.getElem?_append_left hi]; exact ht''), ht, List.take_append_of_le_length hi.le]
  · intro t' ht'; exact h.sizes t' (by rw [ht]; exact List.mem_append_left _ ht')

/-- The next message continues the forest. -/
def Continues (f : Forest) (g : Int) (ts : List Tree) : Prop :=
  g = f.lastLocalTree + 1 ∨ (g = f.lastLocalTree ∧ ∃ t u, f.trees.getLast? = some t ∧ ts.head? = some u ∧ t.eclass = u.eclass)

/-- Receiving a message. -/
theorem recvTrees_spec {m : Message} {g : Int} {ts : List Tree} (hm : IsMsg size m g ts) (hf : WF size f)
    (hc : Continues f g ts) :
    ∃ f', recvTrees size m ts.length 0 0 0 f = some f' ∧ WF size f' ∧ f'.firstLocalTree = f.firstLocalTree ∧
      f'.seq = f.seq ++ treesSeq g ts ∧ f'.lastLocalTree = g + ts.length - 1 := by
  rcases hc with hg | ⟨hg, t, u, ht, hu, he⟩
  · have := recvTrees_new hm ts.length 0 0 f (by omega) hf (by omega)
    simpa [bytesOf] using this
  · obtain ⟨init, hinit⟩ : ∃ init, f.trees = init ++ [t] := by
      obtain ⟨l, hl⟩ := List.getLast?_eq_some_iff.1 ht
      exact ⟨l, hl⟩
    obtain ⟨us, rfl⟩ : ∃ us, ts = u :: us := by
      cases ts with
      | nil => cases hu
      | cons v vs => simp at hu; exact ⟨vs, by rw [hu]⟩
    obtain ⟨hne, hsz⟩ := hm.sized u List.mem_cons_self
    have hpos : 0 < u.leaves.length := List.length_pos_iff.2 hne
    have hl := hf.last
    rw [hinit, List.length_append, List.length_singleton] at hl
    have hlen : 0 + u.leaves.length * size t.eclass ≤ m.bytes.length := by
      rw [hm.bytes, bytesOf_cons, List.length_append, flatten_length hsz, he]; omega
    have hch : chunks (size t.eclass) u.leaves.length (m.bytes.drop 0) = u.leaves := by
      rw [List.drop_zero, hm.bytes, bytesOf_cons, he]; exact chunks_flatten _ hsz
    have hrd : rd f.trees (f.lastLocalTree - f.firstLocalTree) = some t := by
      rw [rd, if_neg (by push_cast at hl; omega), hinit, List.getElem?_append_right (by push_cast at hl; omega),
        show (f.lastLocalTree - f.firstLocalTree).toNat - init.length = 0 by push_cast at hl; omega]
      rfl
    have hset : f.trees.set (f.lastLocalTree - f.firstLocalTree).toNat { t with leaves := t.leaves ++ u.leaves } =
        init ++ [{ t with leaves := t.leaves ++ u.leaves }] := by
      rw [hinit, List.set_append_right _ _ (by push_cast at hl; omega),
        show (f.lastLocalTree - f.firstLocalTree).toNat - init.length = 0 by push_cast at hl; omega]
      rfl
    have hto : t.elementsOffset = f.localNum - t.leaves.length := by
      have h1 := hf.offsets init.length t (by rw [hinit, List.getElem?_append_right le_rfl, Nat.sub_self]; rfl)
      have h2 := hf.num
      rw [Forest.seq, hinit, treesSeq_append, List.length_append] at h2
      rw [hinit, List.take_left] at h1
      simp only [treesSeq, List.append_nil, List.length_map] at h2
      omega
    have hwf := (hf.init hinit).snoc { t with leaves := t.leaves ++ u.leaves } (by simp [hne])
      (fun b hb => by
        rcases List.mem_append.1 hb with h' | h'
        · exact hf.sizes t (by rw [hinit]; simp) b h'
        · rw [hsz b h', ← he]) hto
    obtain ⟨f', g1, g2, g3, g4, g5⟩ := recvTrees_new hm us.length 1 (size t.eclass) _ (by rw [List.length_cons]; omega) hwf
      (by show f.lastLocalTree - 1 + 1 + 1 = _; push_cast; omega)
    refine ⟨f', ?_, g2, g3, ?_, g5⟩
    · rw [List.length_cons, recvTrees, hm.infos]
      simp only [infosOf, List.getElem?_cons_zero, Option.bind_eq_bind, Option.bind_some]
      rw [show assertO (g ≥ f.lastLocalTree) = some () from assertO_true (by omega), Option.bind_some,
        if_neg (by omega), show assertO True = some () from rfl, Option.bind_some, hrd, Option.bind_some,
        show assertO (t.eclass = u.eclass) = some () from assertO_true he, Option.bind_some, if_pos (by omega)]
      simp only [Int.toNat_natCast]
      rw [show assertO (0 + u.leaves.length * size t.eclass ≤ m.bytes.length) = some () from assertO_true hlen, Option.bind_some,
        hch, hset, Option.bind_some]
      dsimp only
      rw [← g1]
      have e1 : 0 + size t.eclass * u.leaves.length = (bytesOf (List.take 1 (u :: us))).length := by
        rw [List.take_succ_cons, List.take_zero, bytesOf_cons, List.length_append, flatten_length hsz, he, Nat.mul_comm]
        simp [bytesOf]
      have e2 : f.localNum + (u.leaves.length : Int) = f.localNum - t.leaves.length + ((t.leaves ++ u.leaves).length : Int) := by
        rw [List.length_append]; push_cast; omega
      have e3 : g = f.lastLocalTree - 1 + 1 := by omega
      rw [e1, e2]
      congr 1
      rw [e3]
    · rw [g4]
      have e4 : Forest.seq { f with
            trees := init ++ [{ t with leaves := t.leaves ++ u.leaves }],
            localNum := f.localNum - t.leaves.length + ((t.leaves ++ u.leaves).length : Int),
            lastLocalTree := f.lastLocalTree - 1 + 1 } = f.seq ++ u.leaves.map (fun b => (g, u.eclass, b)) := by
        rw [Forest.seq, Forest.seq, hinit, treesSeq_append, treesSeq_append]
        simp only [treesSeq, List.append_nil, List.map_append]
        rw [show f.firstLocalTree + (init.length : Int) = g by push_cast at hl; omega, he, List.append_assoc]
      refine (congrArg (· ++ treesSeq (g + ((1 : Nat) : Int)) (List.drop 1 (u :: us))) e4).trans ?_
      rw [List.append_assoc]
      rfl

/-! ### The sequence as a whole -/

section
variable {α : Type}

theorem flatMap_range_succ (s : Nat → List α) (n : Nat) :
    (List.range (n + 1)).flatMap s = (List.range n).flatMap s ++ s n := by
  rw [List.range_succ, List.flatMap_append]; simp

theorem cat_length {s : Nat → List α} {off : Nat → Nat} {P : Nat} (h0 : off 0 = 0)
    (h : ∀ p, p < P → off (p + 1) = off p + (s p).length) :
    ∀ n, n ≤ P → ((List.range n).flatMap s).length = off n := by
  intro n
  induction n with
  | zero => intro _; simp [h0]
  | succ n ih => intro hn; rw [flatMap_range_succ, List.length_append, ih (by omega), h n (by omega)]

theorem cat_slice {s : Nat → List α} {off : Nat → Nat} {P : Nat} (h0 : off 0 = 0)
    (h : ∀ p, p < P → off (p + 1) = off p + (s p).length) {p x y : Nat} (hp : p < P) (hy : y ≤ (s p).length) :
    slice ((List.range P).flatMap s) (off p + x) (off p + y) = slice (s p) x y := by
  have key : ∀ n, n ≤ P → p < n → slice ((List.range n).flatMap s) (off p + x) (off p + y) = slice (s p) x y := by
    intro n
    induction n with
    | zero => intro _ h; omega
    | succ n ih =>
      intro hn hpn
      have hl := cat_length h0 h n (by omega)
      rw [flatMap_range_succ, slice_append, hl]
      rcases Nat.lt_or_ge p n with hlt | hge
      · rw [ih (by omega) hlt]
        have : off (p + 1) ≤ off n := by
          have : ∀ k, p + 1 ≤ k → k ≤ n → off (p + 1) ≤ off k := by
            intro k
            induction k with
            | zero => intro h; omega
            | succ k ihk =>
              intro h1 h2
              rcases Nat.lt_or_ge k (p + 1) with h3 | h3
              · rw [show k + 1 = p + 1 by omega]
              · have := h k (by omega)
                have := ihk h3 (by omega)
                omega
          exact this n hlt le_rfl
        have h2 := h p hp
        rw [slice_empty (s n) (Or.inl (by omega)), List.append_nil]
      · have : p = n := by omega
        subst this
        rw [slice_empty _ (Or.inr (by rw [hl]; omega)), List.nil_append]
        congr 1 <;> omega
  exact key P le_rfl hp

end

theorem treesSeq_getLast (g : Int) (ts : List Tree) {t : Tree} (hne : t.leaves ≠ []) :
    ∃ b, (treesSeq g (ts ++ [t])).getLast? = some (g + ts.length, t.eclass, b) := by
  rw [treesSeq_append]
  simp only [treesSeq, List.append_nil]
  rw [List.getLast?_append_of_ne_nil _ (by simpa using hne), List.getLast?_map]
  obtain ⟨b, hb⟩ : ∃ b, t.leaves.getLast? = some b := by
    rw [← Option.isSome_iff_exists, List.getLast?_isSome]; exact hne
  exact ⟨b, by rw [hb]; rfl⟩

/-- Consecutive parts of a linear sequence continue each other. -/
theorem continues_of_linear {G : List Leaf} (hG : Linear G) {a k c : Nat} (hf : WF size f) (hak : a < k) (hkc : k < c)
    (hseq : f.seq = slice G a k) (hk : k ≤ G.length) (hne : f.trees ≠ []) {g : Int} {ts : List Tree} (hts : Sized size ts)
    (hne' : ts ≠ []) (hmsg : treesSeq g ts = slice G k c) : Continues f g ts := by
  obtain ⟨init, t, hinit⟩ : ∃ init t, f.trees = init ++ [t] := ⟨_, _, (List.dropLast_append_getLast hne).symm⟩
  obtain ⟨u, us, rfl⟩ := List.exists_cons_of_ne_nil hne'
  have hl := hf.last
  rw [hinit, List.length_append, List.length_singleton] at hl
  have htn : t.leaves ≠ [] := hf.nonempty t (by rw [hinit]; simp)
  obtain ⟨hun, _⟩ := hts u List.mem_cons_self
  obtain ⟨b, hb⟩ := treesSeq_getLast f.firstLocalTree init htn
  have h1 : G[k - 1]? = some (f.firstLocalTree + init.length, t.eclass, b) := by
    rw [← hb, ← hinit]
    show _ = f.seq.getLast?
    rw [hseq, List.getLast?_eq_getElem?, slice_length, slice_getElem? _ _ _ _ (by omega)]
    congr 1; omega
  obtain ⟨v, vs, hv⟩ := List.exists_cons_of_ne_nil hun
  have h2 : G[k - 1 + 1]? = some (g, u.eclass, v) := by
    have := slice_getElem? G k c 0 (by omega)
    rw [← hmsg, treesSeq, hv] at this
    rw [show k - 1 + 1 = k + 0 by omega, ← this]; rfl
  rcases hG _ _ _ h1 h2 with ⟨h3, h4⟩ | h3
  · right
    dsimp only at h3 h4
    refine ⟨by push_cast at hl; omega, t, u, by rw [hinit]; simp, rfl, h4.symm⟩
  · left
    dsimp only at h3
    push_cast at hl; omega

end T8.Partition
