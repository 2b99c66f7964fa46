/-
Lemmas about the default pyramids: nearest common ancestors.
-/
import Verif.Lemmas.PyramidLinear
import Verif.Lemmas.SimplexSucc

namespace T8.Pyramid
open T8.RTree T8.Bits
open T8.Simplex (look Cls)

/-! ### Elements of the same cube -/

/-- The six tetrahedra of a cube that an element consists of. -/
def slots (t : Nat) : List Nat := if t = 6 then [1, 2] else if t = 7 then [4, 5] else [t]

theorem slots_parent : ∀ b < 8, ∀ i < (if 6 ≤ b then 10 else 8), ∀ t ∈ slots (look parenttypeIlocToType b i),
    t < 6 ∧ look cidTypeToParenttype (look parenttypeIlocToCid b i) t ∈ slots b := by decide +kernel

theorem slots_child : ∀ b < 8, ∀ i < (if 6 ≤ b then 10 else 8), ∀ j < (if 6 ≤ b then 10 else 8),
    (look parenttypeIlocToCid b i == look parenttypeIlocToCid b j && (slots (look parenttypeIlocToType b i)).any
      (fun t => (slots (look parenttypeIlocToType b j)).contains t)) = true → i = j := by decide +kernel

/-- Different elements of the same level are in different cubes or consist of different tetrahedra. -/
theorem eq_of_slots {x y : Elem} (hx : Valid x) (hy : Valid y) (hc : x.cube = y.cube) {t : Nat} (h1 : t ∈ slots x.type)
    (h2 : t ∈ slots y.type) : x = y := by
  have hl : x.level = y.level := congrArg (fun z : Standalone.Elem 3 => z.level) hc
  induction hn : x.level generalizing x y t with
  | zero => rw [tree.root_unique x hx hn, tree.root_unique y hy (hl.symm.trans hn)]
  | succ n ih =>
    obtain ⟨p, i, p1, p2, p3, rfl⟩ := valid_cases hx (by omega)
    obtain ⟨q, j, q1, q2, q3, rfl⟩ := valid_cases hy (by omega)
    have hpc : p.cube = q.cube := by
      rw [← parent_child p1.good p2 p3, ← parent_child q1.good q2 q3, parent_cube, parent_cube, hc]
    have hpl : p.level = q.level := congrArg (fun z : Standalone.Elem 3 => z.level) hpc
    have hcid : look parenttypeIlocToCid p.type i = look parenttypeIlocToCid q.type j := by
      rw [← cubeid_child p1.good p2 p3, ← cubeid_child q1.good q2 q3, hpl]
      refine cid_ext (cubeid_lt _ _) (cubeid_lt _ _) fun a => ?_
      rw [cubeid_testBit _ (by omega), cubeid_testBit _ (by omega)]
      exact congrArg (fun z : Standalone.Elem 3 => (z.coords a).getLsbD (21 - (q.level + 1))) hc
    rw [(child_cube p1.good p2 p3).2.1] at h1
    rw [(child_cube q1.good q2 q3).2.1] at h2
    have p3' := p3
    have q3' := q3
    rw [numChildren_eq] at p3' q3'
    have e1 := (slots_parent _ (type_lt p1.good) i p3' t h1).2
    have e2 := (slots_parent _ (type_lt q1.good) j q3' t h2).2
    rw [← hcid] at e2
    have hpq := ih p1 q1 hpc e1 e2 hpl (by rw [child_level] at hn; omega)
    subst hpq
    have := slots_child _ (type_lt p1.good) i p3' j q3' (by
      rw [Bool.and_eq_true, beq_iff_eq, List.any_eq_true]
      exact ⟨hcid, t, h1, List.contains_iff_mem.2 h2⟩)
    rw [this]

/-- Elements with the same cube and type are equal. -/
theorem eq_of_type {x y : Elem} (hx : Valid x) (hy : Valid y) (hc : x.cube = y.cube) (ht : x.type = y.type) : x = y := by
  have : ∀ b < 8, ∃ t < 6, t ∈ slots b := by decide +kernel
  obtain ⟨t, _, h⟩ := this x.type (type_lt hx.good)
  exact eq_of_slots hx hy hc h (ht ▸ h)

/-! ### The level of the common cube -/

theorem bits_lt' {e : Elem} (he : Valid e) (i : Fin 3) (k : Nat) (h : (e.tet.x i).getLsbD k = true) :
    21 - e.level ≤ k ∧ k < 21 :=
  (Standalone.valid_iff_bits.1 he.good.cube).2 i k h

theorem cubeLevel_spec {x y : Elem} (hx : Valid x) (hy : Valid y) : ∃ r, cubeLevel x y = some r ∧ r ≤ x.level ∧
    r ≤ y.level ∧ (∀ m ≤ r, (tree.anc x m).cube = (tree.anc y m).cube) ∧
    ∀ m, r < m → m ≤ x.level → m ≤ y.level → tree.anc x m ≠ tree.anc y m := by
  have lx : x.level ≤ 21 := hx.good.cube.1
  have ly : y.level ≤ 21 := hy.good.cube.1
  let w := ((x.tet.x 0 ^^^ y.tet.x 0) ||| (x.tet.x 1 ^^^ y.tet.x 1)) ||| (x.tet.x 2 ^^^ y.tet.x 2)
  have hw : ∀ k, w.getLsbD k = true ↔ ∃ i, ((x.tet.x i) ^^^ (y.tet.x i)).getLsbD k = true := by
    intro k
    rw [Fin.exists_fin_succ, Fin.exists_fin_succ, Fin.exists_fin_succ]
    simp only [w, BitVec.getLsbD_or, Bool.or_eq_true]
    constructor
    · rintro ((h | h) | h)
      exacts [Or.inl h, Or.inr (Or.inl h), Or.inr (Or.inr (Or.inl h))]
    · rintro (h | h | h | h)
      · exact Or.inl (Or.inl h)
      · exact Or.inl (Or.inr h)
      · exact Or.inr h
      · obtain ⟨i, _⟩ := h
        exact i.elim0
  obtain ⟨ha1, ha2⟩ := Standalone.activeBits_spec w
  have hle : Standalone.activeBits w ≤ 21 := by
    by_contra hc
    have h1 := (hw _).1 (ha2 (by omega))
    obtain ⟨i, hi⟩ := h1
    rw [BitVec.getLsbD_xor] at hi
    cases hbx : (x.tet.x i).getLsbD (Standalone.activeBits w - 1) with
    | true => have := bits_lt' hx i _ hbx; omega
    | false =>
      rw [hbx] at hi
      have := bits_lt' hy i _ (by simpa using hi)
      omega
  have hagree : ∀ i k, Standalone.activeBits w ≤ k → (x.tet.x i).getLsbD k = (y.tet.x i).getLsbD k := by
    intro i k hk
    by_contra hne
    have : w.getLsbD k = true := (hw k).2 ⟨i, by rw [BitVec.getLsbD_xor]; simpa using hne⟩
    have := ha1 k this
    omega
  refine ⟨min (21 - Standalone.activeBits w) (min x.level y.level), ?_, by omega, by omega, fun m hm => ?_,
    fun m hm h1 h2 hc => ?_⟩
  · rw [cubeLevel]
    simp only [Option.bind_eq_bind]
    have hle' : Standalone.activeBits ((x.tet.x 0 ^^^ y.tet.x 0) ||| (x.tet.x 1 ^^^ y.tet.x 1) |||
      (x.tet.x 2 ^^^ y.tet.x 2)) ≤ maxLevel := hle
    rw [assertO_true hle']
    rfl
  · refine Standalone.Elem.ext' (fun i => ?_) ?_
    · apply BitVec.eq_of_getLsbD_eq
      intro k hk
      show ((tree.anc x m).tet.x i).getLsbD k = ((tree.anc y m).tet.x i).getLsbD k
      rw [anc_bit hx (by omega), anc_bit hy (by omega)]
      by_cases hk2 : 21 - m ≤ k
      · rw [hagree i k (by omega)]
      · rw [decide_eq_false hk2, Bool.and_false, Bool.and_false]
    · show (tree.anc x m).level = (tree.anc y m).level
      rw [anc_level hx (by omega), anc_level hy (by omega)]
  · have hpos : 0 < Standalone.activeBits w := by omega
    obtain ⟨i, hi⟩ := (hw _).1 (ha2 hpos)
    have hbit := congrArg (fun e : Elem => (e.tet.x i).getLsbD (Standalone.activeBits w - 1)) hc
    simp only [anc_bit hx h1, anc_bit hy h2] at hbit
    have hdec : 21 - m ≤ Standalone.activeBits w - 1 := by omega
    rw [decide_eq_true hdec, Bool.and_true, Bool.and_true] at hbit
    rw [BitVec.getLsbD_xor, hbit, Bool.xor_self] at hi
    exact Bool.false_ne_true hi

/-! ### Two pyramids -/

theorem ncaPyraLoop_spec {x y : Elem} (hx : Valid x) (hy : Valid y) (h6x : 6 ≤ x.type) (h6y : 6 ≤ y.type) :
    ∀ r, r ≤ x.level → r ≤ y.level →
    ∃ m ≤ r, ncaPyraLoop x y r (tree.anc x r).type (tree.anc y r).type = some (m, (tree.anc x m).type) ∧
      (tree.anc x m).type = (tree.anc y m).type ∧
      ∀ k, m < k → k ≤ r → (tree.anc x k).type ≠ (tree.anc y k).type := by
  intro r
  induction r with
  | zero =>
    intro _ _
    refine ⟨0, le_refl _, ?_, by rw [anc_zero' hx, anc_zero' hy], fun k _ _ => by omega⟩
    rw [ncaPyraLoop, anc_zero' hx, anc_zero' hy, if_pos rfl]
  | succ r ih =>
    intro h1 h2
    rw [ncaPyraLoop]
    by_cases h : (tree.anc x (r + 1)).type = (tree.anc y (r + 1)).type
    · exact ⟨r + 1, le_refl _, by rw [if_pos h], h, fun k _ _ => by omega⟩
    · obtain ⟨m, q1, q2, q3, q4⟩ := ih (by omega) (by omega)
      refine ⟨m, by omega, ?_, q3, fun k hk1 hk2 => ?_⟩
      · rw [if_neg h, typeSameShapeExt_eq hx (by omega) h1 (Or.inl ((anc_shape hx h1).1 h6x)),
          typeSameShapeExt_eq hy (by omega) h2 (Or.inl ((anc_shape hy h2).1 h6y)), q2]
      · rcases Nat.lt_or_ge r k with hk | hk
        · rw [show k = r + 1 by omega]; exact h
        · exact q4 k hk1 hk

theorem cut_eq_anc {x : Elem} (hx : Valid x) (h6 : 6 ≤ x.type) {m : Nat} (hm : m ≤ x.level) :
    ({ cutCoordinates { x with tet := { x.tet with level := m } } (maxLevel - m) with
      tet := { (cutCoordinates { x with tet := { x.tet with level := m } } (maxLevel - m)).tet with
        type := (tree.anc x m).type } } : Elem) = tree.anc x m := by
  have h1 := anc_switch hx hm
  rw [if_pos ((anc_shape hx hm).1 h6)] at h1
  refine Elem.ext' (Standalone.Elem.ext' (fun i => congrFun (cut_anc hx hm) i) (anc_level hx hm).symm) rfl ?_
  show x.switch = _
  rw [h1, (hx.good.pyra h6).2]

theorem nca_pyra {x y : Elem} (hx : Valid x) (hy : Valid y) (h6x : 6 ≤ x.type) (h6y : 6 ≤ y.type) (fuel : Nat) :
    ∃ a, ncaRec (fuel + 1) x y = some a ∧ Valid a ∧ tree.IsNca a x y := by
  obtain ⟨r, r1, r2, r3, r4, r5⟩ := cubeLevel_spec hx hy
  obtain ⟨m, q1, q2, q3, q4⟩ := ncaPyraLoop_spec hx hy h6x h6y r r2 r3
  have hpx := (isPyra_iff x).2 h6x
  have hpy := (isPyra_iff y).2 h6y
  refine ⟨tree.anc x m, ?_, valid_anc' hx m, ?_⟩
  · rw [ncaRec, if_neg (by rw [hpy]; simp), if_neg (by rw [hpx]; simp), if_pos ⟨hpx, hpy⟩]
    simp only [Option.bind_eq_bind, r1, Option.bind_some]
    rw [typeSameShape_eq hx r2 (Or.inl h6x), typeSameShape_eq hy r3 (Or.inl h6y), q2]
    simp only [Option.bind_some]
    rw [cut_eq_anc hx h6x (by omega)]
  · refine isNca_anc (T := tree) hx hy (by show m ≤ x.level; omega) (by show m ≤ y.level; omega)
      (eq_of_type (valid_anc' hx m) (valid_anc' hy m) (r4 m q1) q3) ?_
    intro h1 h2 hc
    have h1' : m < x.level := h1
    have h2' : m < y.level := h2
    by_cases hm : m + 1 ≤ r
    · exact q4 (m + 1) (by omega) hm (by rw [hc])
    · exact r5 (m + 1) (by omega) h1' h2' hc

/-! ### Tetrahedra -/

/-- A pyramid that is an ancestor of a tetrahedron is an ancestor of its finest ancestor that is a pyramid. -/
theorem desc_pyra {b y : Elem} (hb : Valid b) (hy : Valid y) (h6 : ¬ 6 ≤ y.type) (hd : tree.Desc b y)
    (hs : (b.level : Int) < y.switch) : tree.Desc b (tree.anc y (y.switch - 1).toNat) := by
  have ht := (hy.good.tet h6).2
  have hl : b.level ≤ y.level := hd.level_le (T := tree) hb
  have hl2 : (y.switch - 1).toNat ≤ y.level := by omega
  have h1 : tree.anc y b.level = b := (hd.anc_eq' (T := tree) hb (le_refl _)).trans (anc_self b)
  rw [← h1, ← anc_anc (T := tree) hy (l := b.level) (m := (y.switch - 1).toNat) (by omega) hl2]
  exact desc_anc (T := tree) (valid_anc' hy _)

theorem anc_pyra {y : Elem} (hy : Valid y) (h6 : ¬ 6 ≤ y.type) : Valid (tree.anc y (y.switch - 1).toNat) ∧
    6 ≤ (tree.anc y (y.switch - 1).toNat).type ∧ ancestor y (y.switch - 1).toNat = tree.anc y (y.switch - 1).toNat ∧
    tree.Desc (tree.anc y (y.switch - 1).toNat) y := by
  have ht := (hy.good.tet h6).2
  exact ⟨valid_anc' hy _, (anc_shape hy (by omega)).2.2 h6 (by omega), ancestor_eq hy (by omega), desc_anc (T := tree) hy⟩

/-- A common ancestor of a pyramid is a pyramid. -/
theorem desc_level {b x y : Elem} (hb : Valid b) (hx : Valid x) (hy : Valid y) (h6x : 6 ≤ x.type) (h6y : ¬ 6 ≤ y.type)
    (h1 : tree.Desc b x) (h2 : tree.Desc b y) : (b.level : Int) < y.switch := by
  by_contra hc
  have l1 : b.level ≤ x.level := h1.level_le (T := tree) hb
  have l2 : b.level ≤ y.level := h2.level_le (T := tree) hb
  have e1 : tree.anc x b.level = b := (h1.anc_eq' (T := tree) hb (le_refl _)).trans (anc_self b)
  have e2 : tree.anc y b.level = b := (h2.anc_eq' (T := tree) hb (le_refl _)).trans (anc_self b)
  have a1 := (anc_shape hx l1).1 h6x
  have a2 := ((anc_shape hy l2).2.1 h6y (by omega)).1
  rw [e1] at a1
  rw [e2] at a2
  exact a2 a1

theorem nca_mixed {x y : Elem} (hx : Valid x) (hy : Valid y) (h6x : 6 ≤ x.type) (h6y : ¬ 6 ≤ y.type) {a : Elem}
    (h : tree.IsNca a x (tree.anc y (y.switch - 1).toNat)) : tree.IsNca a x y := by
  obtain ⟨_, _, _, p4⟩ := anc_pyra hy h6y
  refine ⟨h.1, h.2.1.trans (T := tree) p4, fun b hb d1 d2 => h.2.2 b hb d1 ?_⟩
  exact desc_pyra hb hy h6y d2 (desc_level hb hx hy h6x h6y d1 d2)

theorem isNca_symm {a x y : Elem} (h : tree.IsNca a x y) : tree.IsNca a y x :=
  ⟨h.2.1, h.1, fun b hb d1 d2 => h.2.2 b hb d2 d1⟩

/-- `t8_dtet_ancestor` of a tetrahedron. -/
theorem tet_ancestor {x : Elem} (hx : Valid x) (h6 : ¬ 6 ≤ x.type) {l : Nat} (hl : l ≤ x.level) (hs : x.switch ≤ (l : Int)) :
    Simplex.ancestor .tet x.tet l = some (tree.anc x l).tet := by
  have hlt : ∀ k ≤ x.level, l ≤ k → (tree.anc x k).type < 6 := fun k hk hlk => by
    have := ((anc_shape hx hk).2.1 h6 (by omega)).1
    omega
  have hR : ∀ i j, Simplex.rank .tet (tree.anc x l).type i < Simplex.rank .tet (tree.anc x l).type j ↔
      Simplex.Order (c := .tet) x.tet l i j := by
    intro i j
    have := Simplex.chain_rank (hx.good.aligned h6) (t := fun k => if l ≤ k then (tree.anc x k).type else 0) (l := l)
      (by
        show (if l ≤ x.level then (tree.anc x x.level).type else 0) = x.type
        rw [if_pos hl, anc_self])
      (fun k hk => by
        show (if l ≤ k then (tree.anc x k).type else 0) < 6
        split
        · exact hlt k hk (by assumption)
        · omega)
      hl
      (fun k hk1 hk2 => by
        have hk2' : k < x.level := hk2
        show look (Simplex.cidTypeToParenttype .tet) (Simplex.computeCubeid .tet x.tet (k + 1))
          (if l ≤ k + 1 then (tree.anc x (k + 1)).type else 0) = if l ≤ k then (tree.anc x k).type else 0
        rw [if_pos (by omega), if_pos hk1, ← cubeid_eq,
          ← (tet_tables _ (hlt (k + 1) hk2' (by omega))).1 _ (cubeid_lt _ _)]
        exact anc_type_step hx hk2' (Or.inr (by omega)))
      i j
    simp only [if_pos (le_refl l)] at this
    exact this
  have h1 := Simplex.ancestorType_of (c := .tet) (e := x.tet) (l := l) (hx.good.aligned h6).2 (hlt l hl (le_refl _)) hR
  rw [Simplex.ancestor]
  simp only [Option.bind_eq_bind]
  rw [show x.tet.type = x.type from rfl] at h1
  have h1' : Simplex.ancestorType .tet (fun i => x.tet.x i &&& (Simplex.len .tet l - 1)) x.tet.type =
    some (tree.anc x l).type := h1
  rw [h1', Option.bind_some]
  congr 1
  refine Simplex.Elem.ext' (Standalone.Elem.ext' (fun i => ?_) (anc_level hx hl).symm) rfl
  apply BitVec.eq_of_toNat_eq
  show (x.tet.x i &&& ~~~(Simplex.len .tet l - 1)).toNat = ((tree.anc x l).tet.x i).toNat
  rw [Simplex.len, toNat_clear _ (by show 21 - l < 32; omega)]
  apply Nat.eq_of_testBit_eq
  intro k
  rw [BitVec.testBit_toNat, anc_bit hx hl, ← BitVec.testBit_toNat, Nat.testBit_mul_two_pow, Nat.testBit_div_two_pow,
    Bool.and_comm]
  show (_ && decide (21 - l ≤ k)) = _
  by_cases hk : 21 - l ≤ k
  · rw [decide_eq_true hk, Bool.and_true, Bool.and_true]
    congr 1
    show k - (21 - l) + (21 - l) = k
    omega
  · rw [decide_eq_false hk, Bool.and_false, Bool.and_false]

theorem ncaTetLoop_spec {x y : Elem} (hx : Valid x) (hy : Valid y) (h6x : ¬ 6 ≤ x.type) (h6y : ¬ 6 ≤ y.type) :
    ∀ r t1 t2, r ≤ x.level → r ≤ y.level →
    (x.switch ≤ (r : Int) → t1 = (tree.anc x r).type) → (y.switch ≤ (r : Int) → t2 = (tree.anc y r).type) →
    ∃ m u1 u2, m ≤ r ∧ ncaTetLoop x y r t1 t2 = (m, u1, u2) ∧
      (x.switch ≤ (m : Int) → y.switch ≤ (m : Int) → u1 = u2 ∧ (tree.anc x m).type = (tree.anc y m).type) ∧
      ∀ k, m < k → k ≤ r → (tree.anc x k).type ≠ (tree.anc y k).type := by
  have sx := (hx.good.tet h6x).2
  have sy := (hy.good.tet h6y).2
  intro r
  induction r with
  | zero =>
    intro t1 t2 _ _ _ _
    exact ⟨0, t1, t2, le_refl _, rfl, fun h _ => by omega, fun k _ _ => by omega⟩
  | succ r ih =>
    intro t1 t2 h1 h2 ht1 ht2
    rw [ncaTetLoop]
    by_cases h : t1 ≠ t2 ∧ x.switch ≤ ((r + 1 : Nat) : Int) ∧ y.switch ≤ ((r + 1 : Nat) : Int)
    · rw [if_pos h]
      have e1 := ht1 h.2.1
      have e2 := ht2 h.2.2
      obtain ⟨m, u1, u2, q1, q2, q3, q4⟩ := ih (typeSameShapeExt x r t1 (r + 1)) (typeSameShapeExt y r t2 (r + 1))
        (by omega) (by omega)
        (fun hs => by rw [e1, typeSameShapeExt_eq hx (by omega) h1 (Or.inr hs)])
        (fun hs => by rw [e2, typeSameShapeExt_eq hy (by omega) h2 (Or.inr hs)])
      refine ⟨m, u1, u2, by omega, q2, q3, fun k hk1 hk2 => ?_⟩
      rcases Nat.lt_or_ge r k with hk | hk
      · rw [show k = r + 1 by omega, ← e1, ← e2]; exact h.1
      · exact q4 k hk1 hk
    · rw [if_neg h]
      refine ⟨r + 1, t1, t2, le_refl _, rfl, fun g1 g2 => ?_, fun k _ _ => by omega⟩
      have : t1 = t2 := by
        by_contra hne
        exact h ⟨hne, g1, g2⟩
      exact ⟨this, by rw [← ht1 g1, ← ht2 g2, this]⟩

theorem nca_spec : tree.NcaSpec nca := by
  intro x y hx hy
  have hx' : Valid x := hx
  have hy' : Valid y := hy
  show ∃ a, ncaRec 2 x y = some a ∧ Valid a ∧ tree.IsNca a x y
  by_cases h6x : 6 ≤ x.type
  · by_cases h6y : 6 ≤ y.type
    · exact nca_pyra hx' hy' h6x h6y 1
    · obtain ⟨p1, p2, p3, _⟩ := anc_pyra hy' h6y
      obtain ⟨a, a1, a2, a3⟩ := nca_pyra hx' p1 h6x p2 0
      refine ⟨a, ?_, a2, nca_mixed hx' hy' h6x h6y a3⟩
      rw [ncaRec, if_pos ⟨(isPyra_iff x).2 h6x, by rw [isPyra_iff]; exact h6y⟩, p3]
      exact a1
  · have sx := (hx'.good.tet h6x).2
    obtain ⟨p1, p2, p3, p4⟩ := anc_pyra hx' h6x
    by_cases h6y : 6 ≤ y.type
    · obtain ⟨a, a1, a2, a3⟩ := nca_pyra p1 hy' p2 h6y 0
      refine ⟨a, ?_, a2, isNca_symm (nca_mixed hy' hx' h6y h6x (isNca_symm a3))⟩
      rw [ncaRec, if_neg (fun h => h6x ((isPyra_iff x).1 h.1)),
        if_pos ⟨by rw [isPyra_iff]; exact h6x, (isPyra_iff y).2 h6y⟩, p3]
      exact a1
    · have sy := (hy'.good.tet h6y).2
      obtain ⟨o1, o2, o3, o4⟩ := anc_pyra hy' h6y
      obtain ⟨r, r1, r2, r3, r4, r5⟩ := cubeLevel_spec hx' hy'
      obtain ⟨m, u1, u2, q1, q2, q3, q4⟩ := ncaTetLoop_spec hx' hy' h6x h6y r _ _ r2 r3 (fun _ => rfl) (fun _ => rfl)
      have hstart : ncaRec 2 x y = if (m : Int) < x.switch ∨ (m : Int) < y.switch then
          ncaRec 1 (tree.anc x (x.switch - 1).toNat) (tree.anc y (y.switch - 1).toNat)
        else (assertO (u1 = u2)).bind fun _ => (Simplex.ancestor .tet x.tet m).bind fun a => some ⟨a, x.switch⟩ := by
        rw [ncaRec, if_neg (fun h => h6x ((isPyra_iff x).1 h.1)), if_neg (fun h => h6y ((isPyra_iff y).1 h.2)),
          if_neg (fun h => h6x ((isPyra_iff x).1 h.1))]
        simp only [Option.bind_eq_bind, r1, Option.bind_some]
        rw [ancestor_eq hx' r2, ancestor_eq hy' r3, q2, p3, o3]
      rw [hstart]
      by_cases hs : (m : Int) < x.switch ∨ (m : Int) < y.switch
      · rw [if_pos hs]
        obtain ⟨a, a1, a2, a3⟩ := nca_pyra p1 o1 p2 o2 0
        refine ⟨a, a1, a2, a3.1.trans (T := tree) p4, a3.2.1.trans (T := tree) o4, fun b hb d1 d2 => ?_⟩
        have hb' : Valid b := hb
        have l1 : b.level ≤ x.level := d1.level_le (T := tree) hb
        have l2 : b.level ≤ y.level := d2.level_le (T := tree) hb
        have e1 : tree.anc x b.level = b := (d1.anc_eq' (T := tree) hb (le_refl _)).trans (anc_self b)
        have e2 : tree.anc y b.level = b := (d2.anc_eq' (T := tree) hb (le_refl _)).trans (anc_self b)
        have hbm : b.level ≤ m := by
          by_contra hc
          by_cases hbr : b.level ≤ r
          · exact q4 b.level (by omega) hbr (by rw [e1, e2])
          · exact r5 b.level (by omega) l1 l2 (by rw [e1, e2])
        have hb6 : 6 ≤ b.type := by
          rcases hs with h | h
          · have := (anc_shape hx' l1).2.2 h6x (by omega)
            rw [e1] at this; exact this
          · have := (anc_shape hy' l2).2.2 h6y (by omega)
            rw [e2] at this; exact this
        have hbx : (b.level : Int) < x.switch := by
          by_contra hc
          have := ((anc_shape hx' l1).2.1 h6x (by omega)).1
          rw [e1] at this; exact this hb6
        have hby : (b.level : Int) < y.switch := by
          by_contra hc
          have := ((anc_shape hy' l2).2.1 h6y (by omega)).1
          rw [e2] at this; exact this hb6
        exact a3.2.2 b hb (desc_pyra hb' hx' h6x d1 hbx) (desc_pyra hb' hy' h6y d2 hby)
      · rw [if_neg hs]
        rw [not_or, not_lt, not_lt] at hs
        obtain ⟨w1, w2⟩ := q3 hs.1 hs.2
        have hsw := anc_switch hx' (l := m) (by omega)
        rw [if_neg ((anc_shape hx' (by omega)).2.1 h6x hs.1).1] at hsw
        refine ⟨tree.anc x m, ?_, valid_anc' hx' m, ?_⟩
        · rw [assertO_true w1, Option.bind_some, tet_ancestor hx' h6x (by omega) hs.1, Option.bind_some, ← hsw]
        · refine isNca_anc (T := tree) hx hy (by show m ≤ x.level; omega) (by show m ≤ y.level; omega)
            (eq_of_type (valid_anc' hx' m) (valid_anc' hy' m) (r4 m q1) w2) ?_
          intro h1 h2 hc
          have h1' : m < x.level := h1
          have h2' : m < y.level := h2
          by_cases hm : m + 1 ≤ r
          · exact q4 (m + 1) (by omega) hm (by rw [hc])
          · exact r5 (m + 1) (by omega) h1' h2' hc

end T8.Pyramid
