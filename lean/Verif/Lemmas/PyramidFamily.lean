/-
Lemmas about the default pyramids: the family test.
-/
import Verif.Lemmas.PyramidLinear
import Verif.Lemmas.SimplexFamily
import Verif.Lemmas.Segment

namespace T8.RTree
variable {T : RTree}

/-- Neighbours of the same level in a tiling have consecutive positions. -/
theorem Tiles.lid_next {pre post : List T.E} {x y : T.E} (h : T.Tiles T.root (pre ++ x :: y :: post))
    (hl : T.level x = T.level y) : lid y (T.level x) = lid x (T.level x) + 1 := by
  have ho := h.ordered T.valid_root
  have vx := ho.1 x (by simp)
  have vy := ho.1 y (by simp)
  have hpw := ho.2
  rw [List.pairwise_append, List.pairwise_cons] at hpw
  have hb := hpw.2.1.1 y (by simp)
  have hlev := T.level_le x vx
  have hbl : ∀ a b, T.Valid a → T.Valid b → T.level a = T.level x → T.level b = T.level x →
      (T.Before a b ↔ lid a (T.level x) < lid b (T.level x)) := fun a b ha hb la lb => by
    rw [before_iff ha hb la.le lb.le hlev, count_self' la]
    exact Iff.rfl
  rw [hbl x y vx vy rfl hl.symm] at hb
  have hy := lid_lt vy hl.ge hlev
  rw [count_self' hl.symm] at hy
  by_contra hne
  have hlen : lid x (T.level x) + 1 < (T.uniform T.root (T.level x)).length := by
    have := uniform_length (T := T) (e := T.root) (L := T.level x) (by rw [T.level_root]; omega)
    rw [T.level_root, Nat.sub_zero] at this
    omega
  have hm := (mem_uniform T.valid_root (by rw [T.level_root]; omega)).1 (List.getElem_mem hlen)
  have hv := hm.1.valid T.valid_root
  have hlv := hm.2
  rw [T.level_root, Nat.zero_add] at hlv
  have hpos : lid ((T.uniform T.root (T.level x))[lid x (T.level x) + 1]) (T.level x) = lid x (T.level x) + 1 := by
    have h4 := uniform_getElem_lid (T := T) hv
    rw [hlv] at h4
    exact pos_unique (nodup_root hlev) h4 (List.getElem?_eq_getElem hlen)
  exact h.nothing_between ((hbl _ _ vx hv rfl hlv).2 (by omega)) ((hbl _ _ hv vy hlv hl.symm).2 (by omega))

/-- The same for the elements of a segment. -/
theorem Segment.lid_next {fam : List T.E} (h : T.Segment fam) {k : Nat} {f g : T.E} (hf : fam[k]? = some f)
    (hg : fam[k + 1]? = some g) (hl : T.level f = T.level g) : lid g (T.level f) = lid f (T.level f) + 1 := by
  obtain ⟨pre, post, ht⟩ := h
  have hk : k + 1 < fam.length := (List.getElem?_eq_some_iff.1 hg).1
  have hsplit : pre ++ fam ++ post = (pre ++ fam.take k) ++ f :: g :: (fam.drop (k + 2) ++ post) := by
    have e1 : fam = fam.take k ++ fam.drop k := (List.take_append_drop k fam).symm
    have e2 : fam.drop k = f :: g :: fam.drop (k + 2) := by
      rw [List.drop_eq_getElem_cons (by omega), List.drop_eq_getElem_cons hk]
      have a1 := (List.getElem?_eq_some_iff.1 hf).2
      have a2 := (List.getElem?_eq_some_iff.1 hg).2
      rw [a1, a2]
    conv_lhs => rw [e1, e2]
    simp
  rw [hsplit] at ht
  exact ht.lid_next hl

/-- The element after a child is the next child, or the first child of another element. -/
theorem next_child {p y : T.E} (hp : T.Valid p) (hl : T.level p < T.maxLevel) {i : Nat} (hi : i < T.nc p) (hy : T.Valid y)
    (hyl : T.level y = T.level p + 1)
    (h : lid y (T.level p + 1) = lid (T.child p i) (T.level p + 1) + 1) :
    (i + 1 < T.nc p → y = T.child p (i + 1)) ∧
    (i + 1 = T.nc p → ∃ q, T.Valid q ∧ T.level q = T.level p ∧ y = T.child q 0) := by
  have hsum : ∀ q, T.Valid q → T.level q = T.level p → ∀ j, j + 1 < T.nc q →
      lid (T.child q (j + 1)) (T.level p + 1) = lid (T.child q j) (T.level p + 1) + 1 := by
    intro q hq hql j hj
    rw [lid_child hq (by omega) hj, lid_child hq (by omega) (show j < T.nc q by omega), List.range_succ, List.map_append,
      List.sum_append]
    simp only [List.map_cons, List.map_nil, List.sum_cons, List.sum_nil, Nat.add_zero]
    rw [count_self' (by rw [T.level_child q j hq (by omega) (by omega)]; omega)]
    omega
  have vc : ∀ q, T.Valid q → T.level q = T.level p → ∀ j, j < T.nc q → T.Valid (T.child q j) ∧
      T.level (T.child q j) = T.level p + 1 := fun q hq hql j hj =>
    ⟨T.valid_child q j hq (by omega) hj, by rw [T.level_child q j hq (by omega) hj]; omega⟩
  refine ⟨fun h1 => ?_, fun h1 => ?_⟩
  · have := vc p hp rfl (i + 1) h1
    refine lid_inj hy this.1 (by omega) (L := T.level p + 1) (by omega) (by omega) ?_
    rw [h, hsum p hp rfl i h1]
  · have h0 : 0 < T.level y := by omega
    have hq := T.valid_parent y hy h0
    have hql := T.level_parent y hy h0
    have j1 := T.childId_lt y hy h0
    have j2 := T.child_parent y hy h0
    have hql' : T.level (T.parent y) = T.level p := by omega
    refine ⟨T.parent y, hq, hql', ?_⟩
    rcases Nat.eq_zero_or_pos (T.childId y) with hz | hz
    · rw [← hz]; exact j2.symm
    · exfalso
      obtain ⟨j, hj⟩ : ∃ j, T.childId y = j + 1 := ⟨T.childId y - 1, by omega⟩
      rw [hj] at j1 j2
      have h2 := hsum (T.parent y) hq hql' j j1
      rw [j2, h] at h2
      have v1 := vc p hp rfl i hi
      have v2 := vc (T.parent y) hq hql' j (by omega)
      have h3 := lid_inj v1.1 v2.1 (by omega) (L := T.level p + 1) (by omega) (by omega) (by omega)
      have h4 : p = T.parent y := by
        have := congrArg T.parent h3
        rwa [T.parent_child p i hp hl hi, T.parent_child _ j hq (by omega) (by omega)] at this
      have h5 := congrArg T.childId h3
      rw [T.childId_child p i hp hl hi, T.childId_child _ j hq (by omega) (by omega)] at h5
      rw [← h4] at j1
      omega

/-- The elements of a segment after a child of `p`. -/
theorem Segment.step {fam : List T.E} (hs : T.Segment fam) (hv : ∀ x ∈ fam, T.Valid x) {p : T.E} (hp : T.Valid p)
    (hl : T.level p < T.maxLevel) {j i : Nat} (hi : i < T.nc p) (hj : fam[j]? = some (T.child p i)) {y : T.E}
    (hy : fam[j + 1]? = some y) (hyl : T.level y = T.level p + 1) :
    (i + 1 < T.nc p → y = T.child p (i + 1)) ∧
    (i + 1 = T.nc p → ∃ q, T.Valid q ∧ T.level q = T.level p ∧ y = T.child q 0) := by
  have hlc := T.level_child p i hp hl hi
  have h := hs.lid_next hj hy (by omega)
  rw [hlc] at h
  exact next_child hp hl hi (hv y (List.mem_of_getElem? hy)) hyl h

theorem Segment.chain {fam : List T.E} (hs : T.Segment fam) (hv : ∀ x ∈ fam, T.Valid x) {p : T.E} (hp : T.Valid p)
    (hl : T.level p < T.maxLevel) {k : Nat} (h0 : fam[0]? = some (T.child p k)) {n : Nat} (hn : n < fam.length)
    (hlev : ∀ j ≤ n, ∀ x, fam[j]? = some x → T.level x = T.level p + 1) :
    ∀ j ≤ n, k + j < T.nc p → fam[j]? = some (T.child p (k + j)) := by
  intro j
  induction j with
  | zero => intro _ _; exact h0
  | succ j ih =>
    intro hj hk
    have h1 := ih (by omega) (by omega)
    have hy := List.getElem?_eq_getElem (show j + 1 < fam.length by omega)
    rw [hy, (hs.step hv hp hl (by omega) h1 hy (hlev _ hj _ hy)).1 (by omega)]
    rfl

/-- The first two elements of a segment that are not children of `p`. -/
theorem Segment.chain_end {fam : List T.E} (hs : T.Segment fam) (hv : ∀ x ∈ fam, T.Valid x) {p : T.E} (hp : T.Valid p)
    (hl : T.level p < T.maxLevel) {k : Nat} (hk : k < T.nc p) (h0 : fam[0]? = some (T.child p k)) {n : Nat}
    (hn : n < fam.length) (hlev : ∀ j ≤ n, ∀ x, fam[j]? = some x → T.level x = T.level p + 1) {j : Nat} (hj : j ≤ n)
    (hkj : k + j = T.nc p) :
    ∃ q, T.Valid q ∧ T.level q = T.level p ∧ fam[j]? = some (T.child q 0) ∧
      (j + 1 ≤ n → 1 < T.nc q → fam[j + 1]? = some (T.child q 1)) := by
  obtain ⟨j', rfl⟩ : ∃ j', j = j' + 1 := ⟨j - 1, by omega⟩
  have h1 := hs.chain hv hp hl h0 hn hlev j' (by omega) (by omega)
  have hy := List.getElem?_eq_getElem (show j' + 1 < fam.length by omega)
  obtain ⟨q, q1, q2, q3⟩ := (hs.step hv hp hl (by omega) h1 hy (hlev _ hj _ hy)).2 (by omega)
  rw [q3] at hy
  refine ⟨q, q1, q2, hy, fun h2 h3 => ?_⟩
  have hz := List.getElem?_eq_getElem (show j' + 1 + 1 < fam.length by omega)
  rw [hz, (hs.step hv q1 (by omega) (by omega) hy hz (by rw [hlev _ h2 _ hz, q2])).1 (by omega)]

end T8.RTree

namespace T8.Pyramid
open Simplex (look)

/-- Pyramids: the types of two consecutive elements show whether an array begins with a first child. -/
theorem pyra_table₁ : ∀ b, b = 6 ∨ b = 7 → ∀ k < 10, (k ≠ 0 ∧ 6 ≤ look parenttypeIlocToType b k ∧ k + 1 < 10 ∧
      look parenttypeIlocToType b (k + 1) = look parenttypeIlocToType (look parenttypeIlocToType b k) 1) →
      k + 2 < 10 ∧ look parenttypeIlocToType b (k + 2) ≠ look parenttypeIlocToType (look parenttypeIlocToType b k) 2 := by
  rintro b (rfl | rfl) <;> decide +kernel

theorem pyra_table₂ : ∀ b, b = 6 ∨ b = 7 → ∀ u < 8,
    u = look parenttypeIlocToType (look parenttypeIlocToType b 9) 1 →
      look parenttypeIlocToType u 1 ≠ look parenttypeIlocToType (look parenttypeIlocToType b 9) 2 := by
  rintro b (rfl | rfl) <;> decide +kernel

/-- A tetrahedron with a parent pyramid is not the first of eight elements that pass the test of tetrahedra. -/
theorem mixed_table : ∀ b, b = 6 ∨ b = 7 → ∀ k < 10, ¬ 6 ≤ look parenttypeIlocToType b k → k + 1 < 10 ∧ k ≠ 0 ∧
    look parenttypeIlocToType b (k + 1) ≠
      Simplex.look (Simplex.typeOfChildMorton .tet) (look parenttypeIlocToType b k) 1 := by
  rintro b (rfl | rfl) <;> decide +kernel

/-- The cube ids of the children of a tetrahedron and of the first children of an element. -/
theorem anchor_table : (∀ b < 6, look parenttypeIlocToCid b 3 ≠ look parenttypeIlocToCid b 4 ∧
      look parenttypeIlocToCid b 6 ≠ look parenttypeIlocToCid b 7 ∧ look parenttypeIlocToCid b 7 = 7) ∧
    ∀ u < 8, look parenttypeIlocToCid u 0 = 0 ∧ look parenttypeIlocToCid u 1 ≠ 0 := by decide +kernel

theorem isFamilyTet_type {fam : List Elem} (h : isFamilyTet fam = some true) :
    ∃ f0 f1, fam[0]? = some f0 ∧ fam[1]? = some f1 ∧ f0.level = f1.level ∧
      f1.type = Simplex.look (Simplex.typeOfChildMorton .tet) f0.type 1 := by
  simp only [isFamilyTet, Simplex.isFamily, Simplex.isFamilyTet, Option.bind_eq_bind, Option.bind_eq_some_iff,
    List.getElem?_map, Option.map_eq_some_iff] at h
  obtain ⟨_, ⟨f0, h0, rfl⟩, _, ⟨f1, h1, rfl⟩, _, _, _, _, _, _, _, _, _, _, _, _, h⟩ := h
  refine ⟨f0, f1, h0, h1, ?_⟩
  split at h
  · simp at h
  · split at h
    · simp at h
    · rename_i h2 h3
      simp only [not_or, not_not] at h2 h3
      exact ⟨h2.2.1, h3.1⟩

theorem isFamilyTet_true {fam : List Elem} (h : isFamilyTet fam = some true) :
    (∀ k f g, k < 7 → fam[k]? = some f → fam[k + 1]? = some g → f.level = g.level) ∧
    (∀ k f g, k = 1 ∨ k = 2 ∨ k = 4 ∨ k = 5 → fam[k]? = some f → fam[k + 1]? = some g → f.tet.x = g.tet.x) := by
  obtain ⟨_, h2, h3⟩ := Simplex.isFamily_true h
  refine ⟨fun k f g hk hf hg => h2 k f.tet g.tet hk (by rw [List.getElem?_map, hf]; rfl)
    (by rw [List.getElem?_map, hg]; rfl), fun k f g hk hf hg => h3 k f.tet g.tet ?_ (by rw [List.getElem?_map, hf]; rfl)
    (by rw [List.getElem?_map, hg]; rfl)⟩
  rcases hk with h | h | h | h
  · exact Or.inl h
  · exact Or.inr ⟨rfl, Or.inl h⟩
  · exact Or.inr ⟨rfl, Or.inr (Or.inl h)⟩
  · exact Or.inr ⟨rfl, Or.inr (Or.inr h)⟩

theorem isFamily_tet {fam : List Elem} {f0 : Elem} (h0 : fam[0]? = some f0) (h6 : ¬ 6 ≤ f0.type) :
    isFamily fam = isFamilyTet fam := by
  have hpy : isPyra f0 = false := by rw [← Bool.not_eq_true, isPyra_iff]; exact h6
  rw [isFamily, h0]
  show (if (!isPyra f0) = true then isFamilyTet fam else _) = _
  rw [hpy]
  rfl

theorem isFamily_pyra {fam : List Elem} {f0 : Elem} (h0 : fam[0]? = some f0) (h6 : 6 ≤ f0.type) (hl : 0 < f0.level)
    (hlen : fam.length = 10) : ∃ f1 f2 f3 f4 f5 f6 f7 f8 f9, fam = [f0, f1, f2, f3, f4, f5, f6, f7, f8, f9] ∧
      isFamily fam = some (isFamilyPyra f0 f1 f2 f3 f4 f5 f6 f7 f8 f9) := by
  match fam, hlen with
  | [g0, f1, f2, f3, f4, f5, f6, f7, f8, f9], _ =>
    cases h0
    refine ⟨f1, f2, f3, f4, f5, f6, f7, f8, f9, rfl, ?_⟩
    rw [isFamily]
    show (if (!isPyra f0) = true then _ else if f0.level = 0 then _ else some _) = _
    rw [(isPyra_iff f0).2 h6, if_neg (by simp), if_neg (by omega)]

theorem isFamily_pyra_true {fam : List Elem} {f0 : Elem} (h0 : fam[0]? = some f0) (h6 : 6 ≤ f0.type) (hl : 0 < f0.level)
    (hlen : fam.length = 10) (h : isFamily fam = some true) :
    ∀ j < 10, ∀ f, fam[j]? = some f → f.level = f0.level ∧ (0 < j → f.type = look parenttypeIlocToType f0.type j) := by
  obtain ⟨f1, f2, f3, f4, f5, f6, f7, f8, f9, rfl, h'⟩ := isFamily_pyra h0 h6 hl hlen
  rw [h', Option.some.injEq, isFamilyPyra] at h
  split at h
  · simp at h
  · rename_i hn
    clear h h'
    simp only [List.zipIdx_cons, List.zipIdx_nil, List.any_cons, List.any_nil, Bool.or_false, Bool.or_eq_true,
      decide_eq_true_eq, not_or, not_not, Nat.zero_add, Nat.reduceAdd] at hn
    obtain ⟨⟨a1, b1⟩, ⟨a2, b2⟩, ⟨a3, b3⟩, ⟨a4, b4⟩, ⟨a5, b5⟩, ⟨a6, b6⟩, ⟨a7, b7⟩, ⟨a8, b8⟩, a9, b9⟩ := hn
    intro j hj f hf
    have hf' : [f0, f1, f2, f3, f4, f5, f6, f7, f8, f9][j]? = some f := hf
    interval_cases j
    · cases hf; exact ⟨rfl, fun h => absurd h (by omega)⟩
    · cases hf; exact ⟨a1, fun _ => b1.symm⟩
    · cases hf; exact ⟨a2, fun _ => b2.symm⟩
    · cases hf; exact ⟨a3, fun _ => b3.symm⟩
    · cases hf; exact ⟨a4, fun _ => b4.symm⟩
    · cases hf; exact ⟨a5, fun _ => b5.symm⟩
    · cases hf; exact ⟨a6, fun _ => b6.symm⟩
    · cases hf; exact ⟨a7, fun _ => b7.symm⟩
    · cases hf; exact ⟨a8, fun _ => b8.symm⟩
    · cases hf; exact ⟨a9, fun _ => b9.symm⟩

/-- The children of an element pass the test. -/
theorem isFamily_children {p : Elem} (hp : Good p) (hl : p.level < 21) :
    isFamily ((List.range (numChildren p)).map (child p)) = some true := by
  have hz := child_zero hp hl
  rw [numChildren_eq]
  by_cases h : 6 ≤ p.type
  · rw [if_pos h]
    have hx : ∀ I, ∀ i, (child p I).tet.x i = p.tet.x i +
        if look parenttypeIlocToCid p.type I &&& (1 <<< i.val) ≠ 0 then len (p.level + 1) else 0 := fun I i => by
      rw [child, if_pos ((isPyra_iff p).2 h)]
    have hlev : ∀ I, (child p I).level = p.level + 1 := child_level p
    have ht : ∀ I, (child p I).type = look parenttypeIlocToType p.type I := fun I => (child_pyra h I).2.1
    have hp6 := (hp.pyra h).1
    have h6 : 6 ≤ (child p 0).type := by rw [hz]; exact h
    obtain ⟨f1, f2, f3, f4, f5, f6, f7, f8, f9, hf, h'⟩ := isFamily_pyra (fam := (List.range 10).map (child p)) rfl h6
      (by rw [hlev]; omega) (by simp)
    have hf' : (List.range 10).map (child p) = [child p 0, child p 1, child p 2, child p 3, child p 4, child p 5, child p 6,
      child p 7, child p 8, child p 9] := rfl
    rw [hf'] at hf
    simp only [List.cons.injEq] at hf
    obtain ⟨_, rfl, rfl, rfl, rfl, rfl, rfl, rfl, rfl, rfl, _⟩ := hf
    rw [h']
    have z0 : ((0 : Fin 3) : Nat) = 0 := rfl
    have z1 : ((1 : Fin 3) : Nat) = 1 := rfl
    have z2 : ((2 : Fin 3) : Nat) = 2 := rfl
    clear hf' h' h6 hz
    generalize child p = ch at *
    simp only [isFamilyPyra, hlev, ht, hx, z0, z1, z2]
    rcases hp6 with h6 | h6 <;> rw [h6] <;>
      simp [look, parenttypeIlocToType, parenttypeIlocToCid, hlev, ht, h6, BitVec.add_sub_cancel]
  · rw [if_neg h]
    have hm : ((List.range 8).map (child p)).map Elem.tet = (List.range 8).map (Simplex.child .tet p.tet) := by
      rw [List.map_map]
      refine List.map_congr_left fun i _ => ?_
      rw [Function.comp_apply, child_tet h]
    rw [isFamily_tet (f0 := child p 0) rfl (by rw [hz]; exact h), isFamilyTet, hm]
    exact Simplex.isFamily_children' (hp.aligned h) hl

/-- The test gives an answer for arrays of the right length. -/
theorem isFamily_some {fam : List Elem} {f0 : Elem} (h0 : fam[0]? = some f0) (hl : 0 < f0.level)
    (hlen : fam.length = numSiblings f0) : ∃ b, isFamily fam = some b := by
  by_cases h : 6 ≤ f0.type
  · rw [numSiblings, if_pos (Or.inl ((isPyra_iff f0).2 h))] at hlen
    obtain ⟨f1, f2, f3, f4, f5, f6, f7, f8, f9, _, h'⟩ := isFamily_pyra h0 h hl hlen
    exact ⟨_, h'⟩
  · rw [isFamily_tet h0 h]
    refine Simplex.isFamily_some' (c := .tet) ?_
    rw [List.length_map, hlen, numSiblings]
    split <;> decide

theorem family_of_chain {fam : List Elem} {p : Elem} (hp : Valid p) (hl : p.level < 21) (hlen : fam.length = numChildren p)
    (h : ∀ j < numChildren p, fam[j]? = some (child p j)) : tree.IsFamilyOf fam p := by
  refine ⟨hp, hl, ?_⟩
  apply List.ext_getElem?
  intro k
  show fam[k]? = ((List.range (numChildren p)).map (child p))[k]?
  by_cases hk : k < numChildren p
  · rw [h k hk, List.getElem?_map, List.getElem?_range hk, Option.map_some]
  · rw [List.getElem?_eq_none (by omega), List.getElem?_eq_none (by simp; omega)]

/-- A segment of the leaves of a complete refinement that passes the test is a family. -/
theorem family_of_segment {fam : List Elem} (hs : tree.Segment fam) (hv : ∀ x ∈ fam, Valid x) {f0 : Elem}
    (h0 : fam[0]? = some f0) (hl0 : 0 < f0.level) (hlen : fam.length = numSiblings f0) (h : isFamily fam = some true) :
    ∃ p, tree.IsFamilyOf fam p := by
  have vf := hv f0 (List.mem_of_getElem? h0)
  have hns := numSiblings_eq vf hl0
  obtain ⟨p, k, hp, hpl, hk, rfl⟩ := valid_cases vf hl0
  rw [parent_child hp.good hpl hk] at hns
  rw [hns] at hlen
  have hcl := child_level p k
  have hnc := numChildren_eq p
  have hty := (child_cube hp.good hpl hk).2.1
  have hq2 : ∀ q : Elem, 1 < numChildren q := fun q => by rw [numChildren_eq]; split <;> omega
  refine ⟨p, ?_⟩
  by_cases h6 : 6 ≤ p.type
  · rw [if_pos h6] at hnc
    have hp6 := (hp.good.pyra h6).1
    by_cases hc6 : 6 ≤ (child p k).type
    · -- a pyramid
      have ht := isFamily_pyra_true h0 hc6 hl0 (by omega) h
      have hlev : ∀ j ≤ 9, ∀ x, fam[j]? = some x → tree.level x = tree.level p + 1 := fun j hj x hx =>
        ((ht j (by omega) x hx).1).trans hcl
      have hch := hs.chain (T := tree) hv hp hpl h0 (n := 9) (by omega) hlev
      have hch' : ∀ j ≤ 9, k + j < 10 → fam[j]? = some (child p (k + j)) := fun j h1 h2 => hch j h1 (by
        show k + j < numChildren p; omega)
      by_cases hk0 : k = 0
      · subst hk0
        refine family_of_chain hp hpl (by omega) fun j hj => ?_
        have := hch' j (by omega) (by omega)
        rwa [Nat.zero_add] at this
      · exfalso
        rw [hty] at hc6
        by_cases hk9 : k + 1 < 10
        · have e1 := (ht 1 (by omega) _ (hch' 1 (by omega) hk9)).2 (by omega)
          rw [(child_cube hp.good hpl (by omega)).2.1, hty] at e1
          obtain ⟨hk8, e2⟩ := pyra_table₁ p.type hp6 k (by omega) ⟨hk0, hc6, hk9, e1⟩
          refine e2 ?_
          have e3 := (ht 2 (by omega) _ (hch' 2 (by omega) hk8)).2 (by omega)
          rwa [(child_cube hp.good hpl (by omega)).2.1, hty] at e3
        · obtain ⟨q, q1, q2, q3, q4⟩ := hs.chain_end (T := tree) hv hp hpl hk h0 (n := 9) (by omega) hlev (j := 1) (by omega)
            (by show k + 1 = numChildren p; omega)
          have q2' : q.level = p.level := q2
          have q5 := q4 (by omega) (hq2 q)
          have e1 := (ht 1 (by omega) _ q3).2 (by omega)
          have e2 := (ht 2 (by omega) _ q5).2 (by omega)
          have e1' : (child q 0).type = look parenttypeIlocToType (child p k).type 1 := e1
          have e2' : (child q 1).type = look parenttypeIlocToType (child p k).type 2 := e2
          rw [child_zero q1.good (by omega), hty] at e1'
          rw [(child_cube q1.good (by omega) (hq2 q)).2.1, hty] at e2'
          obtain rfl : k = 9 := by omega
          exact pyra_table₂ p.type hp6 q.type (type_lt q1.good) e1' e2'
    · -- a tetrahedron with a parent pyramid
      exfalso
      rw [isFamily_tet h0 hc6] at h
      obtain ⟨f0', f1, h0', h1, hl1, ht1⟩ := isFamilyTet_type h
      rw [h0] at h0'
      cases h0'
      rw [hty] at hc6
      obtain ⟨m1, m2, m3⟩ := mixed_table p.type hp6 k (by omega) hc6
      have hst := (hs.step (T := tree) hv hp hpl hk h0 h1 (hl1.symm.trans hcl)).1 (by show k + 1 < numChildren p; omega)
      refine m3 ?_
      rw [hty] at ht1
      rw [← ht1, hst]
      exact ((child_cube hp.good hpl (by omega)).2.1).symm
  · rw [if_neg h6] at hnc
    have hp6 := (hp.good.tet h6).1
    have hc6 : ¬ 6 ≤ (child p k).type := by
      have := (good_child hp.good hpl hk)
      have h3 := (Simplex.aligned_child (hp.good.aligned h6) hpl (show k < 8 by omega)).2
      rw [child_tet h6]
      show ¬ 6 ≤ (Simplex.child .tet p.tet k).type
      have h4 : (Simplex.child .tet p.tet k).type < 6 := h3
      omega
    rw [isFamily_tet h0 hc6] at h
    obtain ⟨hlv, hxx⟩ := isFamilyTet_true h
    have hlev : ∀ j ≤ 7, ∀ x, fam[j]? = some x → tree.level x = tree.level p + 1 := by
      intro j
      induction j with
      | zero => intro _ x hx; rw [h0] at hx; cases hx; exact hcl
      | succ j ih =>
        intro hj x hx
        have hy := List.getElem?_eq_getElem (show j < fam.length by omega)
        have h1 := ih (by omega) _ hy
        have h2 := hlv j _ x (by omega) hy hx
        exact h2.symm.trans h1
    have hch := hs.chain (T := tree) hv hp hpl h0 (n := 7) (by omega) hlev
    have hch' : ∀ j ≤ 7, k + j < 8 → fam[j]? = some (child p (k + j)) := fun j h1 h2 => hch j h1 (by
      show k + j < numChildren p; omega)
    have hend : ∀ j ≤ 7, k + j = 8 → ∃ q, Valid q ∧ q.level = p.level ∧ fam[j]? = some (child q 0) ∧
        (j + 1 ≤ 7 → fam[j + 1]? = some (child q 1)) := by
      intro j h1 h2
      obtain ⟨q, q1, q2, q3, q4⟩ := hs.chain_end (T := tree) hv hp hpl hk h0 (n := 7) (by omega) hlev (j := j) h1
        (by show k + j = numChildren p; omega)
      exact ⟨q, q1, q2, q3, fun h => q4 h (hq2 q)⟩
    have hcid : ∀ f g : Elem, f.tet.x = g.tet.x → computeCubeid f (p.level + 1) = computeCubeid g (p.level + 1) :=
      fun f g hfg => by rw [computeCubeid, computeCubeid, hfg]
    have hcc : ∀ i < 8, computeCubeid (child p i) (p.level + 1) = look parenttypeIlocToCid p.type i := fun i hi =>
      cubeid_child hp.good hpl (by omega)
    obtain ⟨a1, a2⟩ := anchor_table
    obtain ⟨a3, a4, a5⟩ := a1 p.type hp6
    have hcq : ∀ q, Valid q → q.level = p.level → computeCubeid (child q 0) (p.level + 1) = 0 ∧
        computeCubeid (child q 1) (p.level + 1) ≠ 0 := fun q vq lq => by
      rw [← lq, cubeid_child vq.good (by omega) (by have := hq2 q; omega), cubeid_child vq.good (by omega) (hq2 q)]
      exact a2 q.type (type_lt vq.good)
    have key : ∀ j i, (j = 1 ∨ j = 2 ∨ j = 4 ∨ j = 5) → k + j = i → i + 1 < 8 → j + 1 ≤ 7 →
        look parenttypeIlocToCid p.type i ≠ look parenttypeIlocToCid p.type (i + 1) → False := by
      intro j i hj hi h1 h2 h3
      subst hi
      have e1 := hcid _ _ (hxx j _ _ hj (hch' j (by omega) (by omega)) (hch' (j + 1) h2 (by omega)))
      rw [hcc _ (by omega), hcc _ (by omega)] at e1
      exact h3 e1
    have key2 : ∀ j, (j = 1 ∨ j = 2 ∨ j = 4 ∨ j = 5) → k + j = 7 → j + 1 ≤ 7 → False := by
      intro j hj h1 h2
      obtain ⟨q, q1, q2, q3, _⟩ := hend (j + 1) h2 (by omega)
      have e1 := hcid _ _ (hxx j _ _ hj (hch' j (by omega) (by omega)) q3)
      rw [h1, hcc _ (by omega), a5, (hcq q q1 q2).1] at e1
      omega
    have hk8 : k < 8 := by omega
    have hk0 : k = 0 := by
      by_contra hne
      interval_cases k
      · exact hne rfl
      · exact key 2 3 (by omega) (by omega) (by omega) (by omega) a3
      · exact key 1 3 (by omega) (by omega) (by omega) (by omega) a3
      · exact key2 4 (by omega) (by omega) (by omega)
      · exact key 2 6 (by omega) (by omega) (by omega) (by omega) a4
      · exact key 1 6 (by omega) (by omega) (by omega) (by omega) a4
      · exact key2 1 (by omega) (by omega) (by omega)
      · obtain ⟨q, q1, q2, q3, q4⟩ := hend 1 (by omega) (by omega)
        have e1 := hcid _ _ (hxx 1 _ _ (by omega) q3 (q4 (by omega)))
        have e2 := hcq q q1 q2
        rw [e2.1] at e1
        exact e2.2 e1.symm
    subst hk0
    refine family_of_chain hp hpl (by omega) fun j hj => ?_
    have := hch' j (by omega) (by omega)
    rwa [Nat.zero_add] at this

end T8.Pyramid
