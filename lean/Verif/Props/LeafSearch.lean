/-
C32, C34, C36: searches in arrays of leaves.
-/
import Verif.Lemmas.LeafSearch
import Verif.Lemmas.Sample

namespace T8.Leaf
open T8.RTree

section
variable {T : RTree} {S : Scheme T}

/-! ### C32 -/

/-- C32 (lower search). The result is the last leaf whose id at level `L` is not larger than `id`, or -1 if all ids are larger. Missing
for the full statement: empty arrays, for which it fails (`C32_empty`). -/
theorem C32_lower_partial (hS : S.Lawful) {ls : List T.E} (h : T.Ordered ls) (hne : ls ≠ []) {L : Nat} (hL : L ≤ T.maxLevel)
    (id : Nat) :
    (binSearchLower S ls id L = some (-1) ∧ ∀ x ∈ ls, id < S.linearId x L) ∨
    ∃ (k : Nat) (x : T.E), binSearchLower S ls id L = some (k : Int) ∧ ls[k]? = some x ∧ S.linearId x L ≤ id ∧
      ∀ j y, ls[j]? = some y → k < j → id < S.linearId y L :=
  binSearchLower_spec hS h hne hL id

/-- C32. The lower search reads the first element of an empty array, and so do the functions that use it. -/
theorem C32_empty (id L : Nat) (e : T.E) :
    binSearchLower S ([] : List T.E) id L = none ∧ binSearchFirst S ([] : List T.E) e = none ∧
    arrayFind S ([] : List T.E) e = none :=
  ⟨rfl, rfl, rfl⟩

/-- C32 (upper search). The result is the first leaf whose id at level `L` is not smaller than `id`, or -1 if all ids are smaller. -/
theorem C32_upper (hS : S.Lawful) {ls : List T.E} (h : T.Ordered ls) {L : Nat} (hL : L ≤ T.maxLevel) (id : Nat) :
    (binSearchUpper S ls id L = some (-1) ∧ ∀ x ∈ ls, S.linearId x L < id) ∨
    ∃ (k : Nat) (x : T.E), binSearchUpper S ls id L = some (k : Int) ∧ ls[k]? = some x ∧ id ≤ S.linearId x L ∧
      ∀ j y, ls[j]? = some y → j < k → S.linearId y L < id :=
  binSearchUpper_spec hS h hL id

/-- C32 (first ancestor or descendant). The result is the first leaf that overlaps the element, with its index, or -1 and no leaf if
none does. Missing for the full statement: empty arrays. -/
theorem C32_first_overlap_partial (hS : S.Lawful) {ls : List T.E} (h : T.Ordered ls) (hne : ls ≠ []) {e : T.E}
    (he : T.Valid e) :
    (binSearchFirst S ls e = some (-1, none) ∧ ∀ x ∈ ls, ¬ T.Desc x e ∧ ¬ T.Desc e x) ∨
    ∃ (k : Nat) (x : T.E), binSearchFirst S ls e = some ((k : Int), some x) ∧ ls[k]? = some x ∧ (T.Desc x e ∨ T.Desc e x) ∧
      ∀ j y, ls[j]? = some y → j < k → ¬ T.Desc y e ∧ ¬ T.Desc e y :=
  binSearchFirst_spec hS h hne he

/-- C32 (find). The result is the index of the element if it is in the array and -1 otherwise. Missing for the full statement: empty
arrays. -/
theorem C32_find_partial (hS : S.Lawful) {ls : List T.E} (h : T.Ordered ls) (hne : ls ≠ []) {e : T.E} (he : T.Valid e) :
    (arrayFind S ls e = some (-1) ∧ e ∉ ls) ∨ ∃ k : Nat, arrayFind S ls e = some (k : Int) ∧ ls[k]? = some e :=
  arrayFind_spec hS h hne he

/-- C32 (find). Looking up leaf `k` gives `k`. -/
theorem C32_find_index (hS : S.Lawful) {ls : List T.E} (h : T.Ordered ls) {k : Nat} {e : T.E} (hk : ls[k]? = some e) :
    arrayFind S ls e = some (k : Int) := by
  have hmem := List.mem_of_getElem? hk
  rcases arrayFind_spec hS h (List.ne_nil_of_mem hmem) (h.1 e hmem) with ⟨_, h1⟩ | ⟨j, h1, h2⟩
  · exact absurd hmem h1
  · rw [h1, pos_unique h.nodup h2 hk]

/-! ### C34 -/

/-- C34. The offsets split the leaves below an element into the leaves below its children. -/
theorem C34_split (hS : S.Lawful) {e : T.E} (he : T.Valid e) {ls : List T.E} (h : T.Ordered ls)
    (hd : ∀ x ∈ ls, T.Desc e x ∧ x ≠ e) :
    ∃ offs, splitArray S e ls = some offs ∧ offs.length = T.nc e + 1 ∧ offs[0]? = some 0 ∧ offs[T.nc e]? = some ls.length ∧
      ∀ i, i < T.nc e → ∃ a b, offs[i]? = some a ∧ offs[i + 1]? = some b ∧ a ≤ b ∧ b ≤ ls.length ∧
        ∀ j x, ls[j]? = some x → ((a ≤ j ∧ j < b) ↔ T.Desc (T.child e i) x) :=
  splitArray_spec hS he h hd

/-- C34. If the element itself is among the leaves, the assertion on the levels fails. -/
theorem C34_leaf (e : T.E) : splitArray S e [e] = none := by
  simp [splitArray, childType]

/-! ### C36 -/

/-- C36. The answer is yes exactly if a proper descendant of the element is stored among the local leaves or the ghosts of the tree. A
local or ghost tree of a forest has leaves (adaptation aborts if a tree loses all its leaves). -/
theorem C36_has_leaf_desc (hS : S.Lawful) {e : T.E} (he : T.Valid e) {L : Nat} (heL : T.level e ≤ L) (hL : L ≤ T.maxLevel)
    (loc ghost : Option (List T.E)) (h1 : ∀ ls, loc = some ls → T.Ordered ls ∧ ls ≠ [])
    (h2 : ∀ ls, ghost = some ls → T.Ordered ls ∧ ls ≠ []) :
    ∃ b, hasLeafDesc S L e loc ghost = some b ∧
      (b = true ↔ ∃ ls, (loc = some ls ∨ ghost = some ls) ∧ ∃ x ∈ ls, T.Desc e x ∧ x ≠ e) := by
  have hl : ∃ b, hasLeafDescOpt S L e (S.linearId (S.lastDescendant e L) L) loc true = some b ∧
      (b = true ↔ ∃ ls, loc = some ls ∧ ∃ x ∈ ls, T.Desc e x ∧ x ≠ e) := by
    cases loc with
    | none => exact ⟨false, rfl, by simp⟩
    | some ls =>
      obtain ⟨b, h3, h4⟩ := hasLeafDescIn_spec hS (h1 ls rfl).1 (h1 ls rfl).2 he heL hL true
      exact ⟨b, h3, by rw [h4]; simp⟩
  have hg : ∃ b, hasLeafDescOpt S L e (S.linearId (S.lastDescendant e L) L) ghost false = some b ∧
      (b = true ↔ ∃ ls, ghost = some ls ∧ ∃ x ∈ ls, T.Desc e x ∧ x ≠ e) := by
    cases ghost with
    | none => exact ⟨false, rfl, by simp⟩
    | some ls =>
      obtain ⟨b, h3, h4⟩ := hasLeafDescIn_spec hS (h2 ls rfl).1 (h2 ls rfl).2 he heL hL false
      exact ⟨b, h3, by rw [h4]; simp⟩
  obtain ⟨b1, h3, h4⟩ := hl
  obtain ⟨b2, h5, h6⟩ := hg
  rw [hasLeafDesc]
  rw [h3]
  simp only [Option.bind_eq_bind, Option.bind_some]
  cases b1 with
  | true =>
    obtain ⟨ls, h7, h8⟩ := h4.1 rfl
    exact ⟨true, rfl, by simp only [true_iff]; exact ⟨ls, Or.inl h7, h8⟩⟩
  | false =>
    refine ⟨b2, h5, ?_⟩
    rw [h6]
    constructor
    · rintro ⟨ls, h7, h8⟩
      exact ⟨ls, Or.inr h7, h8⟩
    · rintro ⟨ls, h7 | h7, h8⟩
      · have := h4.2 ⟨ls, h7, h8⟩
        cases this
      · exact ⟨ls, h7, h8⟩

/-- C36. With an empty array of leaves the search reads outside of the array. -/
theorem C36_empty (L : Nat) (e : T.E) : hasLeafDesc S L e (some []) none = none := rfl

end

/-! ### Concrete cases -/

open T8.Sample T8.Standalone

/-- `C32_find_index` and `C32_first_overlap_partial`: in the leaves of a middle process, `d 2` is leaf number 1 and the first leaf that
overlaps child 1 of the root is number 0. -/
example : arrayFind (Cls.scheme .quad) [d 1, d 2, d 3, c 2] (d 2) = some 1 ∧
    ∃ (k : Nat) (x : Q.E), binSearchFirst (Cls.scheme .quad) [d 1, d 2, d 3, c 2] (c 1) = some ((k : Int), some x) := by
  refine ⟨C32_find_index (Cls.scheme_lawful .quad) ordered_part (k := 1) rfl, ?_⟩
  rcases C32_first_overlap_partial (Cls.scheme_lawful .quad) ordered_part (by simp) (valid_c (i := 1) (by decide)) with
    ⟨_, h⟩ | ⟨k, x, h, _⟩
  · exact absurd (Desc.child_self (T := Q) (lt_max (by decide)) (by decide)) (h (d 1) (by simp)).2
  · exact ⟨k, x, h⟩

/-- `C34_split` of the leaves below the root. -/
example : ∃ offs, splitArray (Cls.scheme .quad) Q.root leaves = some offs ∧ offs.length = 5 ∧ offs[4]? = some 7 := by
  obtain ⟨offs, h1, h2, _, h4, _⟩ := C34_split (Cls.scheme_lawful .quad) Q.valid_root ordered (fun x hx => by
    refine ⟨tiles.desc Q.valid_root x hx, ?_⟩
    rintro rfl
    revert hx
    decide +kernel)
  exact ⟨offs, h1, h2, h4⟩

/-- `C36_has_leaf_desc`: child 1 of the root has leaf descendants. -/
example : hasLeafDesc (Cls.scheme .quad) 30 (c 1) (some leaves) none = some true := by
  obtain ⟨b, h1, h2⟩ := C36_has_leaf_desc (Cls.scheme_lawful .quad) (valid_c (i := 1) (by decide)) (L := 30)
    (by rw [level_c (by decide)]; decide) (by decide) (some leaves) none
    (fun ls h => by cases h; exact ⟨ordered, by simp [leaves]⟩) (fun ls h => by cases h)
  rw [h1, h2.2 ⟨leaves, Or.inl rfl, d 1, by simp [leaves], Desc.child_self (T := Q) (lt_max (by decide)) (by decide), by
    decide +kernel⟩]

end T8.Leaf
