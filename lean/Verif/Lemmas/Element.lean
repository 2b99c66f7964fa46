/-
How the element functions of a scheme are verified: sufficient conditions, in terms of positions
(`lid`), for the specifications of `Spec/Element.lean`.
-/
import Verif.Spec.Element
import Verif.Lemmas.RTree

namespace T8.RTree
variable {T : RTree}

theorem uniform_add (e : T.E) (n m : Nat) :
    T.uniform e (n + m) = (T.uniform e n).flatMap (fun x => T.uniform x m) := by
  induction n generalizing e with
  | zero => simp [uniform]
  | succ n ih =>
    rw [show n + 1 + m = (n + m) + 1 by omega, uniform_succ, uniform_succ, List.flatMap_assoc]
    congr 1
    funext i
    exact ih _

theorem getElem?_append_middle {α : Type} (a c : List α) (b : List α) (hb : b ≠ []) :
    (a ++ b ++ c)[a.length]? = b.head? := by
  cases b with
  | nil => exact absurd rfl hb
  | cons x b => simp

/-- Positions in a list without repetitions are unique. -/
theorem pos_unique {α : Type} {l : List α} (h : l.Nodup) {i j : Nat} {x : α} (hi : l[i]? = some x)
    (hj : l[j]? = some x) : i = j := by
  have h1 : i < l.length := by
    by_contra hc
    rw [List.getElem?_eq_none (by omega)] at hi
    cases hi
  rw [List.getElem?_eq_getElem h1] at hi
  have h2 : j < l.length := by
    by_contra hc
    rw [List.getElem?_eq_none (by omega)] at hj
    cases hj
  rw [List.getElem?_eq_getElem h2] at hj
  exact (List.Nodup.getElem_inj_iff h).1 ((Option.some.inj hi).trans (Option.some.inj hj).symm)

theorem nodup_root {L : Nat} (h : L ≤ T.maxLevel) : (T.uniform T.root L).Nodup :=
  nodup_uniform T.valid_root (by rw [T.level_root]; omega)

/-- The position is determined by the list. -/
theorem lid_of_getElem {x : T.E} (hx : T.Valid x) {i : Nat}
    (h : (T.uniform T.root (T.level x))[i]? = some x) : i = lid x (T.level x) :=
  pos_unique (nodup_root (T.level_le x hx)) h (uniform_getElem_lid hx)

theorem mem_root_uniform {x : T.E} {L : Nat} (hL : L ≤ T.maxLevel) :
    x ∈ T.uniform T.root L ↔ T.Valid x ∧ T.level x = L := by
  rw [mem_uniform T.valid_root (by rw [T.level_root]; omega), T.level_root, Nat.zero_add]
  exact ⟨fun h => ⟨h.1.valid T.valid_root, h.2⟩, fun h => ⟨desc_root h.1, h.2⟩⟩

theorem count_root {L : Nat} : T.count T.root L = (T.uniform T.root L).length := by
  have := count_eq (T := T) (e := T.root) (n := L)
  rwa [T.level_root, Nat.zero_add] at this

/-- Elements at consecutive positions: their descendants are consecutive as well. -/
theorem lid_next {x y : T.E} (hx : T.Valid x) (hy : T.Valid y) (hl : T.level y = T.level x)
    (h : lid y (T.level x) = lid x (T.level x) + 1) {L : Nat} (hL : T.level x ≤ L) (hL' : L ≤ T.maxLevel) :
    lid y L = lid x L + T.count x L := by
  -- every position from `lid x L + count x L` on belongs to an element not before `y`
  have hcy := count_pos hy (hl ▸ hL) hL'
  have hcx := count_pos hx hL hL'
  have hb : T.Before x y := by
    rw [before_iff hx hy le_rfl (by omega) (T.level_le x hx), count_self]
    omega
  have h1 := hb.lid_le hL (by omega) hL'
  by_contra hne
  -- the element at position `lid x L + count x L`
  have hlt : lid x L + T.count x L < (T.uniform T.root L).length := by
    have := lid_lt hy (by omega) hL'
    rw [← count_root]; omega
  obtain ⟨z, hz⟩ : ∃ z, (T.uniform T.root L)[lid x L + T.count x L]? = some z :=
    ⟨_, List.getElem?_eq_getElem hlt⟩
  obtain ⟨vz, lz⟩ := (mem_root_uniform hL').1 (List.mem_of_getElem? hz)
  have hzl : lid z L = lid x L + T.count x L := by
    rw [← lz]; rw [← lz] at hz; exact (lid_of_getElem vz hz).symm
  -- its ancestor on the level of `x` is strictly between
  let w := T.anc z (T.level x)
  have vw : T.Valid w := valid_anc vz _
  have lw : T.level w = T.level x := level_anc vz (by omega)
  have dw : T.Desc w z := desc_anc vz
  have bz := dw.lid_bounds vw (L := L) (by omega) hL'
  have cz : T.count z L = 1 := by rw [← lz, count_self]
  have b1 : T.Before x w := by
    rcases position_cases hx vw with hc | hc | hc | hc
    · have := hc.eq_of_level hx (by omega)
      rw [this] at bz
      omega
    · have := hc.eq_of_level vw (by omega)
      rw [← this] at bz
      omega
    · exact hc
    · have := hc.lid_le (L := L) (by omega) hL hL'
      omega
  have b2 : T.Before w y := by
    rcases position_cases hy vw with hc | hc | hc | hc
    · have := hc.eq_of_level hy (by omega)
      rw [this] at bz
      omega
    · have := hc.eq_of_level vw (by omega)
      rw [← this] at bz
      omega
    · have := hc.lid_le (L := L) (by omega) (by omega) hL'
      omega
    · exact hc
  have c1 := b1.lid_le (L := T.level x) le_rfl (by omega) (T.level_le x hx)
  have c2 := b2.lid_le (L := T.level x) (by omega) (by omega) (T.level_le x hx)
  have c3 := count_self (T := T) x
  have c4 : T.count w (T.level x) = 1 := by rw [← lw, count_self]
  omega

/-! ### Linear ids -/

theorem linearIdSpec_of {lin : T.E → Nat → Nat}
    (h : ∀ e L, T.Valid e → L ≤ T.maxLevel →
      lin e L = lid (if L < T.level e then T.anc e L else e) L) : T.LinearIdSpec lin := by
  intro e L he hL
  rw [h e L he hL]
  split
  · rename_i hlt
    rw [if_pos hlt.le]
    have := uniform_getElem_lid (valid_anc he L)
    rwa [level_anc he hlt.le] at this
  · rename_i hge
    rw [uniform_getElem_lid' he (by omega) hL]
    by_cases heq : T.level e = L
    · subst heq; simp [firstDesc]
    · rw [if_neg (by omega)]

theorem LinearIdSpec.eq {lin : T.E → Nat → Nat} (h : T.LinearIdSpec lin) {e : T.E} {L : Nat} (he : T.Valid e)
    (hl : T.level e ≤ L) (hL : L ≤ T.maxLevel) : lin e L = lid e L := by
  have h1 := h e L he hL
  have h2 := uniform_getElem_lid' he hl hL
  refine pos_unique (nodup_root hL) h1 ?_
  rw [h2]
  split
  · rename_i hle
    have : T.level e = L := by omega
    subst this
    simp [firstDesc]
  · rfl

theorem setLinearIdSpec_of {setLin : Nat → Nat → Option T.E}
    (h : ∀ L id, L ≤ T.maxLevel → id < T.count T.root L →
      ∃ x, setLin L id = some x ∧ T.Valid x ∧ T.level x = L ∧ lid x L = id) : T.SetLinearIdSpec setLin := by
  intro L id hL hid
  obtain ⟨x, hx, vx, lx, hp⟩ := h L id hL (by rwa [count_root])
  rw [hx, ← hp, ← lx, uniform_getElem_lid vx]

theorem successorSpec_of {succ : T.E → Option T.E}
    (h : ∀ e, T.Valid e → lid e (T.level e) + 1 < T.count T.root (T.level e) →
      ∃ s, succ e = some s ∧ T.Valid s ∧ T.level s = T.level e ∧
        lid s (T.level e) = lid e (T.level e) + 1) : T.SuccessorSpec succ := by
  intro e s i he hi hs
  have h1 := lid_of_getElem he hi
  subst h1
  have h2 : lid e (T.level e) + 1 < T.count T.root (T.level e) := by
    rw [count_root]
    by_contra hc
    rw [List.getElem?_eq_none (by omega)] at hs
    cases hs
  obtain ⟨s', hs', v, l, hl⟩ := h e he h2
  have h3 := uniform_getElem_lid v
  rw [l, hl, hs] at h3
  rw [hs', ← h3]

/-- The next sibling is the successor. -/
theorem lid_next_sibling {e : T.E} (he : T.Valid e) (h0 : 0 < T.level e)
    (h : T.childId e + 1 < T.nc (T.parent e)) :
    T.Valid (T.child (T.parent e) (T.childId e + 1)) ∧
    T.level (T.child (T.parent e) (T.childId e + 1)) = T.level e ∧
    lid (T.child (T.parent e) (T.childId e + 1)) (T.level e) = lid e (T.level e) + 1 := by
  have hp := T.valid_parent e he h0
  have hpl := T.level_parent e he h0
  have hle := T.level_le e he
  have hlt := T.childId_lt e he h0
  refine ⟨T.valid_child _ _ hp (by omega) h, by rw [T.level_child _ _ hp (by omega) h]; omega, ?_⟩
  rw [lid_child hp (by omega) h]
  conv_rhs => rw [← T.child_parent e he h0]
  rw [T.level_child _ _ hp (by omega) hlt, lid_child hp (by omega) hlt, List.range_succ]
  have : T.count (T.child (T.parent e) (T.childId e)) (T.level (T.parent e) + 1) = 1 := by
    rw [← T.level_child _ _ hp (by omega) hlt, count_self]
  simp only [List.map_append, List.sum_append, List.map_cons, List.map_nil, List.sum_cons, List.sum_nil]
  rw [← hpl, this]
  omega

/-- The first child of the successor of the parent is the successor of the last child. -/
theorem lid_next_last {e s : T.E} (he : T.Valid e) (h0 : 0 < T.level e)
    (h : T.childId e + 1 = T.nc (T.parent e)) (hs : T.Valid s) (hsl : T.level s = T.level (T.parent e))
    (hlid : lid s (T.level (T.parent e)) = lid (T.parent e) (T.level (T.parent e)) + 1) :
    T.Valid (T.child s 0) ∧ T.level (T.child s 0) = T.level e ∧
    lid (T.child s 0) (T.level e) = lid e (T.level e) + 1 := by
  have hp := T.valid_parent e he h0
  have hpl := T.level_parent e he h0
  have hle := T.level_le e he
  have hlt := T.childId_lt e he h0
  have hs0 := T.nc_pos s hs
  refine ⟨T.valid_child _ _ hs (by omega) hs0, by rw [T.level_child _ _ hs (by omega) hs0]; omega, ?_⟩
  rw [lid_child hs (by omega) hs0]
  have h1 := lid_next hp hs hsl hlid (L := T.level e) (by omega) hle
  have h2 : lid e (T.level e) + 1 = lid (T.parent e) (T.level e) + T.count (T.parent e) (T.level e) := by
    have h3 : lid e (T.level e) = lid (T.child (T.parent e) (T.childId e)) (T.level e) := by
      rw [T.child_parent e he h0]
    rw [h3, lid_child hp (by omega) hlt, count_children hp (by omega) hle, ← h, List.range_succ]
    have : T.count (T.child (T.parent e) (T.childId e)) (T.level e) = 1 := by
      rw [T.child_parent e he h0, count_self]
    simp only [List.map_append, List.sum_append, List.map_cons, List.map_nil, List.sum_cons, List.sum_nil]
    omega
  simp
  omega

/-- The last child of the last element is the last element. -/
theorem lid_last {e : T.E} (he : T.Valid e) (h0 : 0 < T.level e)
    (h : lid e (T.level e) + 1 < T.count T.root (T.level e))
    (hc : T.childId e + 1 = T.nc (T.parent e)) :
    lid (T.parent e) (T.level (T.parent e)) + 1 < T.count T.root (T.level (T.parent e)) := by
  have hp := T.valid_parent e he h0
  have hpl := T.level_parent e he h0
  have hle := T.level_le e he
  have hlt := T.childId_lt e he h0
  by_contra hcon
  have h1 := lid_lt hp (L := T.level (T.parent e)) le_rfl (by omega)
  rw [count_self] at h1
  -- the parent is the last element of its level, so nothing comes after it
  have h2 : lid e (T.level e) + 1 = lid (T.parent e) (T.level e) + T.count (T.parent e) (T.level e) := by
    have h3 : lid e (T.level e) = lid (T.child (T.parent e) (T.childId e)) (T.level e) := by
      rw [T.child_parent e he h0]
    rw [h3, lid_child hp (by omega) hlt, count_children hp (by omega) hle, ← hc, List.range_succ]
    have : T.count (T.child (T.parent e) (T.childId e)) (T.level e) = 1 := by
      rw [T.child_parent e he h0, count_self]
    simp only [List.map_append, List.sum_append, List.map_cons, List.map_nil, List.sum_cons, List.sum_nil]
    omega
  have hlt2 : lid e (T.level e) + 1 < (T.uniform T.root (T.level e)).length := by rwa [← count_root]
  obtain ⟨z, hz⟩ : ∃ z, (T.uniform T.root (T.level e))[lid e (T.level e) + 1]? = some z :=
    ⟨_, List.getElem?_eq_getElem hlt2⟩
  obtain ⟨vz, lz⟩ := (mem_root_uniform hle).1 (List.mem_of_getElem? hz)
  have hzl : lid z (T.level e) = lid e (T.level e) + 1 := by
    have hz' : (T.uniform T.root (T.level z))[lid e (T.level e) + 1]? = some z := by rw [lz]; exact hz
    have := lid_of_getElem vz hz'; rw [lz] at this; exact this.symm
  have cz : T.count z (T.level e) = 1 := by rw [← lz, count_self]
  have vw : T.Valid (T.anc z (T.level (T.parent e))) := valid_anc vz _
  have lw : T.level (T.anc z (T.level (T.parent e))) = T.level (T.parent e) := level_anc vz (by omega)
  have dw : T.Desc (T.anc z (T.level (T.parent e))) z := desc_anc vz
  have bz := dw.lid_bounds vw (L := T.level e) (by omega) hle
  have hb : T.Before (T.parent e) (T.anc z (T.level (T.parent e))) := by
    rcases position_cases hp vw with hc | hc | hc | hc
    · rw [hc.eq_of_level hp (by omega)] at bz
      omega
    · rw [← hc.eq_of_level vw (by omega)] at bz
      omega
    · exact hc
    · have := hc.lid_le (L := T.level e) (by omega) (by omega) hle
      omega
  have c1 := hb.lid_le (L := T.level (T.parent e)) le_rfl (by omega) (by omega)
  have c2 := lid_lt vw (L := T.level (T.parent e)) (by omega) (by omega)
  have c3 : T.count (T.parent e) (T.level (T.parent e)) = 1 := count_self _
  have c4 : T.count (T.anc z (T.level (T.parent e))) (T.level (T.parent e)) = 1 := by
    exact count_self' lw
  omega

/-! ### First and last descendants -/

theorem head_uniform {e : T.E} (he : T.Valid e) {n : Nat} (h : T.level e + n ≤ T.maxLevel) :
    (T.uniform e n).head? = some (T.firstDesc e n) := by
  induction n generalizing e with
  | zero => rfl
  | succ n ih =>
    have h0 := T.nc_pos e he
    have hl := T.level_child e 0 he (by omega) h0
    have h1 := ih (T.valid_child e 0 he (by omega) h0) (by omega)
    rw [uniform_succ, range_split h0, firstDesc]
    simp only [List.range_zero, List.nil_append, List.flatMap_cons]
    rw [List.head?_append, h1]
    rfl

theorem getLast_uniform {e : T.E} (he : T.Valid e) {n : Nat} (h : T.level e + n ≤ T.maxLevel) :
    (T.uniform e n).getLast? = some (T.lastDesc e n) := by
  induction n generalizing e with
  | zero => rfl
  | succ n ih =>
    have h0 := T.nc_pos e he
    have hi : T.nc e - 1 < T.nc e := by omega
    have hl := T.level_child e _ he (by omega) hi
    have h1 := ih (T.valid_child e _ he (by omega) hi) (by omega)
    rw [uniform_succ, range_split hi, lastDesc, show T.nc e - (T.nc e - 1) - 1 = 0 by omega]
    simp only [List.range_zero, List.map_nil, List.flatMap_append, List.flatMap_cons, List.flatMap_nil,
      List.append_nil]
    rw [List.getLast?_append, h1]
    rfl

theorem descendantSpec_of {first last : T.E → Nat → T.E}
    (h : ∀ e L, T.Valid e → T.level e ≤ L → L ≤ T.maxLevel →
      first e L = T.firstDesc e (L - T.level e) ∧ last e L = T.lastDesc e (L - T.level e)) :
    T.DescendantSpec first last := by
  intro e L he hl hL
  obtain ⟨h1, h2⟩ := h e L he hl hL
  rw [h1, h2]
  exact ⟨head_uniform he (by omega), getLast_uniform he (by omega)⟩

theorem DescendantSpec.eq {first last : T.E → Nat → T.E} (h : T.DescendantSpec first last) {e : T.E} {L : Nat}
    (he : T.Valid e) (hl : T.level e ≤ L) (hL : L ≤ T.maxLevel) :
    first e L = T.firstDesc e (L - T.level e) ∧ last e L = T.lastDesc e (L - T.level e) := by
  obtain ⟨h1, h2⟩ := h e L he hl hL
  rw [head_uniform he (by omega)] at h1
  rw [getLast_uniform he (by omega)] at h2
  exact ⟨(Option.some.inj h1).symm, (Option.some.inj h2).symm⟩

/-- The element that starts where `e` starts is the first descendant. -/
theorem eq_firstDesc {e x : T.E} (he : T.Valid e) (hx : T.Valid x) (hl : T.level e ≤ T.level x)
    (h : lid x (T.level x) = lid e (T.level x)) : x = T.firstDesc e (T.level x - T.level e) := by
  have hle := T.level_le x hx
  obtain ⟨h1, h2, h3⟩ := firstDesc_spec he (n := T.level x - T.level e) (by omega)
  refine lid_inj hx (h1.valid he) (by omega) (L := T.level x) le_rfl hle ?_
  rw [h3, h]

/-- The element that ends where `e` ends is the last descendant. -/
theorem eq_lastDesc {e x : T.E} (he : T.Valid e) (hx : T.Valid x) (hl : T.level e ≤ T.level x)
    (h : lid x (T.level x) + 1 = lid e (T.level x) + T.count e (T.level x)) :
    x = T.lastDesc e (T.level x - T.level e) := by
  have hle := T.level_le x hx
  obtain ⟨h1, h2, h3⟩ := lastDesc_spec he (n := T.level x - T.level e) (by omega)
  refine lid_inj hx (h1.valid he) (by omega) (L := T.level x) le_rfl hle ?_
  have h4 := h3 (T.level x) (by omega) hle
  have h5 : T.count (T.lastDesc e (T.level x - T.level e)) (T.level x) = 1 := by
    exact count_self' (by omega)
  omega

theorem descendantIntervalSpec_of {lin : T.E → Nat → Nat} {first last : T.E → Nat → T.E}
    (h1 : T.LinearIdSpec lin) (h2 : T.DescendantSpec first last) :
    T.DescendantIntervalSpec lin first last := by
  intro e x L he hx hl hL hlx
  obtain ⟨hf, hla⟩ := h2.eq he hl hL
  obtain ⟨f1, f2, f3⟩ := firstDesc_spec he (n := L - T.level e) (by omega)
  obtain ⟨l1, l2, l3⟩ := lastDesc_spec he (n := L - T.level e) (by omega)
  rw [hf, hla, h1.eq (f1.valid he) (by omega) hL, h1.eq (l1.valid he) (by omega) hL,
    h1.eq hx hlx.le hL, f3, desc_iff_lid he hx (by omega) hlx.le hL]
  have h4 := l3 L (by omega) hL
  have h5 : T.count (T.lastDesc e (L - T.level e)) L = 1 := by
    have := count_self (T := T) (T.lastDesc e (L - T.level e))
    rwa [show T.level (T.lastDesc e (L - T.level e)) = L by omega] at this
  omega

/-! ### Ancestors -/

theorem ancestorSpec_of {ancestor : T.E → Nat → T.E}
    (h : ∀ e l, T.Valid e → l ≤ T.level e → ancestor e l = T.anc e l) : T.AncestorSpec ancestor := by
  intro e l he hl
  rw [h e l he hl]
  exact ⟨valid_anc he l, level_anc he hl, desc_anc he⟩

theorem AncestorSpec.eq {ancestor : T.E → Nat → T.E} (h : T.AncestorSpec ancestor) {e : T.E} {l : Nat}
    (he : T.Valid e) (hl : l ≤ T.level e) : ancestor e l = T.anc e l := by
  obtain ⟨h1, h2, h3⟩ := h e l he hl
  have := h3.anc_eq h1
  rw [h2] at this
  exact this.symm

/-- The ancestor on the finest level on which the ancestors agree is the nearest common ancestor. -/
theorem isNca_anc {x y : T.E} (hx : T.Valid x) (hy : T.Valid y) {m : Nat} (h1 : m ≤ T.level x)
    (h2 : m ≤ T.level y) (h : T.anc x m = T.anc y m)
    (h3 : m < T.level x → m < T.level y → T.anc x (m + 1) ≠ T.anc y (m + 1)) :
    T.IsNca (T.anc x m) x y := by
  refine ⟨desc_anc hx, h ▸ desc_anc hy, fun b hb d1 d2 => ?_⟩
  have l1 := d1.level_le hb
  have l2 := d2.level_le hb
  refine desc_comparable hb (valid_anc hx m) d1 (desc_anc hx) ?_
  rw [level_anc hx h1]
  by_contra hc
  refine h3 (by omega) (by omega) ?_
  rw [d1.anc_eq' hb (by omega), d2.anc_eq' hb (by omega)]

theorem isNca_unique {a b x y : T.E} (ha : T.Valid a) (hb : T.Valid b) (h1 : T.IsNca a x y)
    (h2 : T.IsNca b x y) : a = b := by
  have d1 := h1.2.2 b hb h2.1 h2.2.1
  have d2 := h2.2.2 a ha h1.1 h1.2.1
  exact d1.eq_of_level hb (d2.level_le ha)

/-! ### Order -/

theorem ltTotalOrder : T.LtTotalOrder := by
  have key : ∀ x y, T.Valid x → T.Valid y → (T.Lt x y ↔
      (lid x T.maxLevel < lid y T.maxLevel ∨
        (lid x T.maxLevel = lid y T.maxLevel ∧ T.level x < T.level y))) := by
    intro x y hx hy
    have lx := T.level_le x hx
    have ly := T.level_le y hy
    have cx := count_pos hx lx le_rfl
    have cy := count_pos hy ly le_rfl
    constructor
    · rintro (h | ⟨h, hne⟩)
      · have := h.lid_le lx ly le_rfl; omega
      · have h1 := h.lid_bounds hx ly le_rfl
        have h2 := h.level_le hx
        rcases Nat.lt_or_ge (T.level x) (T.level y) with h3 | h3
        · omega
        · exact absurd (h.eq_of_level hx h3).symm hne
    · intro h
      rcases position_cases hx hy with hc | hc | hc | hc
      · right
        refine ⟨hc, ?_⟩
        rintro rfl
        omega
      · have h1 := hc.lid_bounds hy lx le_rfl
        have h2 := hc.level_le hy
        omega
      · exact Or.inl hc
      · have := hc.lid_le ly lx le_rfl; omega
  refine ⟨fun x hx h => ?_, fun x y z hx hy hz h1 h2 => ?_, fun x y hx hy => ?_⟩
  · rw [key x x hx hx] at h; omega
  · rw [key x y hx hy] at h1
    rw [key y z hy hz] at h2
    rw [key x z hx hz]
    omega
  · rw [key x y hx hy, key y x hy hx]
    by_cases h : lid x T.maxLevel = lid y T.maxLevel ∧ T.level x = T.level y
    · right; left
      exact lid_inj hx hy h.2 (T.level_le x hx) le_rfl h.1
    · omega

/-- `Lt` in terms of positions on any level that is fine enough. -/
theorem lt_iff_lid {x y : T.E} (hx : T.Valid x) (hy : T.Valid y) {L : Nat} (lx : T.level x ≤ L)
    (ly : T.level y ≤ L) (hL : L ≤ T.maxLevel) :
    T.Lt x y ↔ (lid x L < lid y L ∨ (lid x L = lid y L ∧ T.level x < T.level y)) := by
  have cx := count_pos hx lx hL
  have cy := count_pos hy ly hL
  constructor
  · rintro (h | ⟨h, hne⟩)
    · have := h.lid_le lx ly hL; omega
    · have h1 := h.lid_bounds hx ly hL
      have h2 := h.level_le hx
      rcases Nat.lt_or_ge (T.level x) (T.level y) with h3 | h3
      · omega
      · exact absurd (h.eq_of_level hx h3).symm hne
  · intro h
    rcases position_cases hx hy with hc | hc | hc | hc
    · right
      refine ⟨hc, ?_⟩
      rintro rfl
      omega
    · have h1 := hc.lid_bounds hy lx hL
      have h2 := hc.level_le hy
      omega
    · exact Or.inl hc
    · have := hc.lid_le ly lx hL; omega

/-- The comparison used by all schemes: positions on the finer of the two levels, then levels. -/
theorem compareSpec_of {cmp : T.E → T.E → Int}
    (h : ∀ x y, T.Valid x → T.Valid y →
      (cmp x y < 0 ↔ lid x (max (T.level x) (T.level y)) < lid y (max (T.level x) (T.level y)) ∨
        (lid x (max (T.level x) (T.level y)) = lid y (max (T.level x) (T.level y)) ∧
          T.level x < T.level y)) ∧
      (cmp x y = 0 ↔ lid x (max (T.level x) (T.level y)) = lid y (max (T.level x) (T.level y)) ∧
        T.level x = T.level y)) : T.CompareSpec cmp := by
  intro x y hx hy
  obtain ⟨h1, h2⟩ := h x y hx hy
  have lx := T.level_le x hx
  have ly := T.level_le y hy
  have e1 := lt_iff_lid hx hy (L := max (T.level x) (T.level y)) (by omega) (by omega) (by omega)
  have e2 := lt_iff_lid hy hx (L := max (T.level x) (T.level y)) (by omega) (by omega) (by omega)
  refine ⟨by rw [h1, e1], ?_, ?_⟩
  · rw [h2]
    constructor
    · rintro ⟨h3, h4⟩
      exact lid_inj hx hy h4 (by omega) (by omega) h3
    · rintro rfl
      exact ⟨rfl, rfl⟩
  · rw [e2]
    constructor
    · intro h3
      by_contra hc
      rcases lt_trichotomy (cmp x y) 0 with h4 | h4 | h4
      · omega
      · omega
      · have n1 : ¬ cmp x y < 0 := by omega
        have n2 : ¬ cmp x y = 0 := by omega
        rw [h1] at n1
        rw [h2] at n2
        omega
    · intro h3
      by_contra hc
      have : cmp x y < 0 ∨ cmp x y = 0 := by omega
      rcases this with h4 | h4
      · rw [h1] at h4; omega
      · rw [h2] at h4; omega

end T8.RTree
