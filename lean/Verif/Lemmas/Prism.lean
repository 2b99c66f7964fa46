/-
The refinement tree of prisms and their linear ids.
-/
import Verif.Spec.Prism
import Verif.Lemmas.ProductTree
import Verif.Lemmas.Dline
import Verif.Lemmas.SimplexSucc

namespace T8.Prism
open T8.RTree T8.Bits
open T8.Simplex (Cls)

theorem regular_tri : (Simplex.tree .tri).Regular 4 := Simplex.regular .tri

/-- The refinement tree of prisms: the product of the trees of triangles and of lines. -/
@[reducible] def tree : RTree :=
  prod (Simplex.tree .tri) Dline.tree 4 2 maxLevel regular_tri Dline.regular (by decide) (by decide)

/-- The functions of the tree are those of the model. -/
theorem tree_functions : tree.root = root ∧ tree.level = level ∧ tree.child = child ∧ tree.parent = parent ∧
    (∀ p, tree.nc p = numChildren) ∧ tree.maxLevel = maxLevel := ⟨rfl, rfl, rfl, rfl, fun _ => rfl, rfl⟩

theorem regular : tree.Regular 8 := prod_regular (h1 := by decide) (h2 := by decide)

theorem childId_nat {e : Prism} (he : Valid e) : childId e = (tree.childId e : Nat) := by
  show (Simplex.childId .tri e.1 : Int) + 4 * Dline.childId e.2 =
    ((Simplex.childId .tri e.1 + 4 * (Dline.childId e.2).toNat : Nat) : Int)
  rw [Nat.cast_add, Nat.cast_mul, Dline.childId_nat he.2.1]
  rfl

theorem valid_child {e : Prism} (he : Valid e) (hl : e.2.level < maxLevel) {i : Nat} (hi : i < 8) : Valid (child e i) :=
  tree.valid_child e i he hl hi

theorem valid_parent {e : Prism} (he : Valid e) (hl : 0 < e.2.level) : Valid (parent e) := tree.valid_parent e he hl

theorem pos_eq {e : Prism} (he : Valid e) :
    pos (T := tree) e = mix 4 2 e.2.level (pos (T := Simplex.tree .tri) e.1) (pos (T := Dline.tree) e.2) :=
  prod_pos (A := Simplex.tree .tri) (B := Dline.tree) (p := 4) (q := 2) (M := maxLevel) (hA := regular_tri)
    (hB := Dline.regular) (h1 := by decide) (h2 := by decide) e he

theorem anc_eq {e : Prism} (he : Valid e) (l : Nat) : tree.anc e l = ((Simplex.tree .tri).anc e.1 l, Dline.tree.anc e.2 l) :=
  prod_anc (show tree.Valid e from he) l

/-! ### Linear ids -/

theorem ofNat_div {a b : Nat} (ha : a < 2 ^ 64) (hb : b < 2 ^ 64) :
    BitVec.ofNat 64 a / BitVec.ofNat 64 b = BitVec.ofNat 64 (a / b) := by
  apply BitVec.eq_of_toNat_eq
  rw [BitVec.toNat_udiv, BitVec.toNat_ofNat, BitVec.toNat_ofNat, BitVec.toNat_ofNat, Nat.mod_eq_of_lt ha,
    Nat.mod_eq_of_lt hb, Nat.mod_eq_of_lt (lt_of_le_of_lt (Nat.div_le_self _ _) ha)]

theorem ofNat_mod {a b : Nat} (ha : a < 2 ^ 64) (hb : b < 2 ^ 64) :
    BitVec.ofNat 64 a % BitVec.ofNat 64 b = BitVec.ofNat 64 (a % b) := by
  apply BitVec.eq_of_toNat_eq
  rw [BitVec.toNat_umod, BitVec.toNat_ofNat, BitVec.toNat_ofNat, BitVec.toNat_ofNat, Nat.mod_eq_of_lt ha,
    Nat.mod_eq_of_lt hb, Nat.mod_eq_of_lt (lt_of_le_of_lt (Nat.mod_le _ _) ha)]

theorem triLoop_eq (n t P id : Nat) (ht : t < 2 ^ 64) :
    triLoop n (BitVec.ofNat 64 t) (BitVec.ofNat 64 P) (BitVec.ofNat 64 id) = BitVec.ofNat 64 (id + P * mix 4 2 n t 0) := by
  induction n generalizing t P id with
  | zero => simp [triLoop, mix]
  | succ n ih =>
    have e4 : (4 : BitVec 64) = BitVec.ofNat 64 4 := rfl
    have e8 : (8 : BitVec 64) = BitVec.ofNat 64 8 := rfl
    rw [triLoop, e4, e8, ofNat_div ht (by decide), ofNat_mod ht (by decide), ← BitVec.ofNat_mul, ← BitVec.ofNat_mul,
      ← BitVec.ofNat_add, ih _ _ _ (lt_of_le_of_lt (Nat.div_le_self _ _) ht)]
    congr 1
    simp only [mix, Nat.zero_div, Nat.zero_mod, Nat.mul_zero, Nat.add_zero]
    ring

theorem lineLoop_eq (n l id : Nat) (hn : n ≤ 21) (hl : l < 2 ^ n) :
    lineLoop n (BitVec.ofNat 64 l) (BitVec.ofNat 64 (2 ^ n / 2)) (BitVec.ofNat 64 (8 ^ n / 2)) (BitVec.ofNat 64 id) =
      BitVec.ofNat 64 (id + mix 4 2 n 0 l) := by
  induction n generalizing l id with
  | zero => simp [lineLoop, mix]
  | succ n ih =>
    have h2 : 2 ^ (n + 1) / 2 = 2 ^ n := by rw [Nat.pow_succ]; omega
    have h8 : 8 ^ (n + 1) / 2 = 4 * 8 ^ n := by rw [Nat.pow_succ]; omega
    have hp2 : 2 ^ n < 2 ^ 64 := Nat.pow_lt_pow_right (by omega) (by omega)
    have hp8 : 4 * 8 ^ n < 2 ^ 64 := by
      have : 8 ^ n ≤ 8 ^ 20 := Nat.pow_le_pow_right (by omega) (by omega)
      omega
    have hl' : l < 2 ^ 64 := lt_trans hl (Nat.pow_lt_pow_right (by omega) (by omega))
    have e2 : (2 : BitVec 64) = BitVec.ofNat 64 2 := rfl
    have e8 : (8 : BitVec 64) = BitVec.ofNat 64 8 := rfl
    rw [lineLoop, h2, h8, ofNat_mod hl' hp2, ofNat_div hl' hp2, e2, e8, ofNat_div hp2 (by decide),
      ofNat_div hp8 (by decide), ← BitVec.ofNat_mul, ← BitVec.ofNat_add]
    have h3 : 4 * 8 ^ n / 8 = 8 ^ n / 2 := by omega
    rw [h3, ih _ _ (by omega) (Nat.mod_lt _ (Nat.two_pow_pos _)), mix_top]
    congr 1
    have hq : l / 2 ^ n < 2 := Nat.div_lt_of_lt_mul (by rw [← Nat.pow_succ]; exact hl)
    have hm : mix 4 2 n 0 (l % 2 ^ n) = mix 4 2 n 0 l := by
      clear ih h2 h8 hp2 hp8 hl' h3 hq hl hn
      induction n generalizing l with
      | zero => rfl
      | succ n ih =>
        have a1 : l % 2 ^ (n + 1) / 2 = l / 2 % 2 ^ n := by
          rw [Nat.pow_succ', Nat.mod_mul_right_div_self]
        have a2 : l % 2 ^ (n + 1) % 2 = l % 2 := by
          rw [Nat.mod_mod_of_dvd _ ⟨2 ^ n, by rw [Nat.pow_succ']⟩]
        rw [mix, mix, a1, a2, Nat.zero_div, ih]
    rw [hm, Nat.mod_eq_of_lt hq]
    simp only [Nat.zero_div, Nat.zero_mod, Nat.zero_add]
    ring

theorem linearId_toNat {t l L : Nat} (hL : L ≤ maxLevel) (ht : t < 2 ^ 64) (hl : l < 2 ^ L) {e : Prism}
    (h1 : Simplex.linearId .tri e.1 L = BitVec.ofNat 64 t) (h2 : Dline.linearId e.2 L = BitVec.ofNat 64 l) :
    (linearId e L).toNat = mix 4 2 L t l := by
  have hb := mix_bound (p := 4) (q := 2) (by decide) (by decide) L t l
  have hb8 : (4 * 2) ^ L < 2 ^ 64 := by
    have : (4 * 2) ^ L ≤ (4 * 2) ^ 21 := Nat.pow_le_pow_right (by omega) hL
    omega
  rw [linearId]
  split
  · rename_i h0; subst h0; simp [mix]
  · rename_i h0
    obtain ⟨n, rfl⟩ := Nat.exists_eq_succ_of_ne_zero h0
    have e1 : (1 : BitVec 64) = BitVec.ofNat 64 1 := rfl
    have e0 : (0 : BitVec 64) = BitVec.ofNat 64 0 := rfl
    have e4 : (4 : BitVec 64) = BitVec.ofNat 64 4 := rfl
    have g2 : 2 ^ (n.succ - 1) = 2 ^ n.succ / 2 := by rw [Nat.succ_sub_one, Nat.pow_succ]; omega
    have g8 : 4 * 8 ^ (n.succ - 1) = 8 ^ n.succ / 2 := by rw [Nat.succ_sub_one, Nat.pow_succ]; omega
    simp only []
    rw [h1, h2, e1, e0, e4, triLoop_eq _ _ _ _ ht, ← BitVec.ofNat_mul, g2, g8, lineLoop_eq _ _ _ hL hl, Nat.zero_add,
      Nat.one_mul, ← mix_add, BitVec.toNat_ofNat, Nat.mod_eq_of_lt (by omega)]

theorem linearId_spec : tree.LinearIdSpec (fun e L => (linearId e L).toNat) := by
  have key : ∀ (e : Prism) L, Valid e → L ≤ maxLevel → (linearId e L).toNat = mix 4 2 L
      (Simplex.linearId .tri e.1 L).toNat (Dline.linearId e.2 L).toNat := by
    intro e L he hL
    have hq := regular_tri.lin_eq (Simplex.linearId_spec .tri) he.1 (L := L) (le_trans hL (by decide))
    have hr := Dline.regular.lin_eq Dline.linearId_spec he.2.1 (L := L) (le_trans hL (by decide))
    refine linearId_toNat hL (BitVec.isLt _) ?_ (by simp) (by simp)
    have hs := Dline.linearId_spec e.2 L he.2.1 (le_trans hL (by decide))
    obtain ⟨hlt, _⟩ := List.getElem?_eq_some_iff.1 hs
    rw [← count_root, Dline.regular.count_root (le_trans hL (by decide))] at hlt
    exact hlt
  apply regular.linearIdSpec
  · intro e L he hl
    have he' : Valid e := he
    have hl2 : L ≤ e.2.level := hl
    have hl1 : L ≤ e.1.level := by have := he'.2.2.1; omega
    have hL : L ≤ maxLevel := le_trans hl2 he'.2.2.2
    have hv : Valid (tree.anc e L) := valid_anc (T := tree) he L
    have hlv : (tree.anc e L).2.level = L := level_anc (T := tree) he hl
    show (linearId e L).toNat = _
    rw [← regular.pos_anc he hl, pos_eq hv, hlv, anc_eq he', key e L he' hL]
    have hq := regular_tri.lin_eq (Simplex.linearId_spec .tri) he'.1 (L := L) (le_trans hL (by decide))
    have hr := Dline.regular.lin_eq Dline.linearId_spec he'.2.1 (L := L) (le_trans hL (by decide))
    rw [if_pos hl1] at hq
    rw [if_pos hl2] at hr
    rw [hq, hr]
    show _ = mix 4 2 L (pos (T := Simplex.tree .tri) ((Simplex.tree .tri).anc e.1 L)) (pos (T := Dline.tree) (Dline.tree.anc e.2 L))
    rw [regular_tri.pos_anc he'.1 hl1, Dline.regular.pos_anc he'.2.1 hl2]
  · intro e L he hl hL
    have he' : Valid e := he
    have hl2 : e.2.level < L := hl
    have hl1 : e.1.level < L := by have := he'.2.2.1; omega
    show (linearId e L).toNat = pos (T := tree) e * 8 ^ (L - e.2.level)
    rw [key e L he' hL, pos_eq he']
    have hq := regular_tri.lin_eq (Simplex.linearId_spec .tri) he'.1 (L := L) (le_trans hL (by decide))
    have hr := Dline.regular.lin_eq Dline.linearId_spec he'.2.1 (L := L) (le_trans hL (by decide))
    rw [if_neg (Nat.not_le.2 hl1)] at hq
    rw [if_neg (Nat.not_le.2 hl2)] at hr
    rw [hq, hr]
    have hk : L = e.2.level + (L - e.2.level) := by omega
    have := mix_shift (p := 4) (q := 2) (by decide) (by decide) e.2.level (L - e.2.level)
      (pos (T := Simplex.tree .tri) e.1) (pos (T := Dline.tree) e.2)
    rw [← hk] at this
    rw [← this]
    show mix 4 2 L (_ * 4 ^ (L - e.1.level)) (_ * 2 ^ (L - e.2.level)) = _
    rw [he'.2.2.1]

/-! ### Setting linear ids -/

/-- The digits of the triangle. -/
def digA : Nat → Nat → Nat
  | 0, _ => 0
  | n + 1, id => digA n (id / 8) * 4 + id % 4

/-- The digits of the line. -/
def digB : Nat → Nat → Nat
  | 0, _ => 0
  | n + 1, id => digB n (id / 8) * 2 + id % 8 / 4

theorem mix_dig (n id : Nat) : mix 4 2 n (digA n id) (digB n id) = id % 8 ^ n := by
  induction n generalizing id with
  | zero => simp [mix, Nat.mod_one]
  | succ n ih =>
    have a1 : (digA n (id / 8) * 4 + id % 4) / 4 = digA n (id / 8) := by omega
    have a2 : (digA n (id / 8) * 4 + id % 4) % 4 = id % 4 := by omega
    have b1 : (digB n (id / 8) * 2 + id % 8 / 4) / 2 = digB n (id / 8) := by omega
    have b2 : (digB n (id / 8) * 2 + id % 8 / 4) % 2 = id % 8 / 4 := by omega
    rw [mix, digA, digB, a1, a2, b1, b2, ih, Nat.pow_succ', Nat.mod_mul]
    omega

theorem digA_lt (n id : Nat) : digA n id < 4 ^ n := by
  induction n generalizing id with
  | zero => simp [digA]
  | succ n ih => have := ih (id / 8); rw [digA, Nat.pow_succ]; omega

theorem digB_lt (n id : Nat) : digB n id < 2 ^ n := by
  induction n generalizing id with
  | zero => simp [digB]
  | succ n ih => have := ih (id / 8); rw [digB, Nat.pow_succ]; omega

theorem dig_succ (n id : Nat) (h : id < 8 ^ n) : digA (n + 1) id = digA n id ∧ digB (n + 1) id = digB n id := by
  induction n generalizing id with
  | zero => have : id = 0 := by simpa using h
            subst this; decide
  | succ n ih =>
    have h' : id / 8 < 8 ^ n := Nat.div_lt_of_lt_mul (by rw [← Nat.pow_succ']; exact h)
    obtain ⟨h1, h2⟩ := ih _ h'
    constructor
    · rw [digA, h1, digA]
    · rw [digB, h2, digB]

theorem initLoop_eq (n i id P T B : Nat) (h : id < 2 ^ 64) :
    initLoop n i (BitVec.ofNat 64 id) (BitVec.ofNat 64 P) (BitVec.ofNat 64 T) (BitVec.ofNat 64 B) =
      (BitVec.ofNat 64 (T + P * digA n id), BitVec.ofNat 64 (B + 2 ^ i * digB n id)) := by
  induction n generalizing i id P T B with
  | zero => simp [initLoop, digA, digB]
  | succ n ih =>
    have e4 : (4 : BitVec 64) = BitVec.ofNat 64 4 := rfl
    have e8 : (8 : BitVec 64) = BitVec.ofNat 64 8 := rfl
    rw [initLoop, e4, e8, ofNat_div h (by decide), ofNat_mod h (by decide), ofNat_mod h (by decide),
      ofNat_div (lt_of_le_of_lt (Nat.mod_le _ _) h) (by decide), ← BitVec.ofNat_mul, ← BitVec.ofNat_mul,
      ← BitVec.ofNat_mul, ← BitVec.ofNat_add, ← BitVec.ofNat_add, ih _ _ _ _ _ (lt_of_le_of_lt (Nat.div_le_self _ _) h)]
    congr 2
    · rw [digA]; ring
    · rw [digB, Nat.pow_succ]; ring

theorem set_tri {L t : Nat} (hL : L ≤ 29) (ht : t < 4 ^ L) : ∃ x, Simplex.initLinearId .tri L (BitVec.ofNat 64 t) = some x ∧
    Simplex.Valid .tri x ∧ x.level = L ∧ pos (T := Simplex.tree .tri) x = t := by
  have hc : t < ((Simplex.tree .tri).uniform (Simplex.tree .tri).root L).length := by
    rw [← count_root, regular_tri.count_root hL]; exact ht
  have hs := Simplex.setLinearId_spec .tri L t hL hc
  obtain ⟨x, hx⟩ : ∃ x, ((Simplex.tree .tri).uniform (Simplex.tree .tri).root L)[t]? = some x :=
    ⟨_, List.getElem?_eq_getElem hc⟩
  have hm := (mem_root_uniform (T := Simplex.tree .tri) hL).1 (List.mem_of_getElem? hx)
  rw [hx] at hs
  have hxl : x.level = L := hm.2
  refine ⟨x, ?_, hm.1, hm.2, ?_⟩
  · replace hs : Simplex.setLinearId .tri L (BitVec.ofNat 64 t) = some x := hs
    unfold Simplex.setLinearId at hs
    simp only [Option.bind_eq_bind] at hs
    cases h1 : assertO (L ≤ Cls.tri.maxLevel) with
    | none => rw [h1] at hs; cases hs
    | some u =>
      rw [h1, Option.bind_some] at hs
      cases h2 : assertO (BitVec.ofNat 64 t < (1 : BitVec 64) <<< (Cls.tri.dim * L)) with
      | none => rw [h2] at hs; cases hs
      | some u => rw [h2, Option.bind_some] at hs; exact hs
  · have := lid_of_getElem (T := Simplex.tree .tri) hm.1 (i := t) (by rw [show (Simplex.tree .tri).level x = L from hxl]; exact hx)
    exact this.symm

theorem set_line {L t : Nat} (hL : L ≤ 30) (ht : t < 2 ^ L) : ∃ x, Dline.initLinearId L (BitVec.ofNat 64 t) = some x ∧
    Dline.Valid x ∧ x.level = L ∧ pos (T := Dline.tree) x = t := by
  have hc : t < (Dline.tree.uniform Dline.tree.root L).length := by
    rw [← count_root, Dline.regular.count_root hL]; exact ht
  have hs := Dline.setLinearId_spec L t hL hc
  obtain ⟨x, hx⟩ : ∃ x, (Dline.tree.uniform Dline.tree.root L)[t]? = some x := ⟨_, List.getElem?_eq_getElem hc⟩
  have hm := (mem_root_uniform (T := Dline.tree) hL).1 (List.mem_of_getElem? hx)
  rw [hx] at hs
  have hxl : x.level = L := hm.2
  refine ⟨x, hs, hm.1, hm.2, ?_⟩
  have := lid_of_getElem (T := Dline.tree) hm.1 (i := t) (by rw [show Dline.tree.level x = L from hxl]; exact hx)
  exact this.symm

theorem setLinearId_spec : tree.SetLinearIdSpec (fun L id => setLinearId L (BitVec.ofNat 64 id)) := by
  apply regular.setLinearIdSpec
  intro L id hL hid
  have hL' : L ≤ 21 := hL
  have h8 : 8 ^ L ≤ 8 ^ 21 := Nat.pow_le_pow_right (by omega) hL'
  have h64 : id < 2 ^ 64 := by omega
  obtain ⟨hA, hB⟩ := dig_succ L id hid
  obtain ⟨t, t1, t2, t3, t4⟩ := set_tri (L := L) (by omega) (digA_lt L id)
  obtain ⟨l, l1, l2, l3, l4⟩ := set_line (L := L) (by omega) (digB_lt L id)
  have hv : Valid (t, l) := ⟨t2, l2, by rw [t3, l3], by rw [l3]; exact hL⟩
  refine ⟨(t, l), ?_, hv, l3, ?_⟩
  · have hlt : BitVec.ofNat 64 id < BitVec.ofNat 64 (8 ^ L) := by
      rw [BitVec.lt_def, BitVec.toNat_ofNat, BitVec.toNat_ofNat, Nat.mod_eq_of_lt h64, Nat.mod_eq_of_lt (by omega)]
      exact hid
    have hshift : (1 : BitVec 64) <<< (3 * L) = BitVec.ofNat 64 (8 ^ L) := by
      apply BitVec.eq_of_toNat_eq
      rw [BitVec.toNat_shiftLeft, BitVec.toNat_ofNat, Nat.shiftLeft_eq, Nat.pow_mul]
      simp
    rw [setLinearId]
    simp only [Option.bind_eq_bind]
    rw [assertO_true hL, Option.bind_some, hshift, assertO_true hlt, Option.bind_some, initLinearId]
    simp only [Option.bind_eq_bind]
    rw [assertO_true hL, Option.bind_some, assertO_true hlt, Option.bind_some]
    have e1 : (1 : BitVec 64) = BitVec.ofNat 64 1 := rfl
    have e0 : (0 : BitVec 64) = BitVec.ofNat 64 0 := rfl
    rw [e1, e0, initLoop_eq _ _ _ _ _ _ h64, hA, hB]
    simp only [Nat.zero_add, Nat.one_mul, Nat.pow_zero]
    rw [t1, l1]
    rfl
  · rw [pos_eq hv]
    show mix 4 2 l.level _ _ = id
    rw [l3, t4, l4, mix_dig, Nat.mod_eq_of_lt hid]

end T8.Prism
