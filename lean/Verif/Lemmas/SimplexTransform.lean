/-
The transformation of triangles between the coordinate systems of two trees that share a face.
-/
import Verif.Lemmas.SimplexExtrude

namespace T8.Simplex
open T8.RTree T8.Bits

/-- The orientation as it is used. -/
def effOr (o : Nat) (sign small : Bool) : Nat := if !small && decide (o ≠ 0) && !sign then 3 - o else o

theorem effOr_le {o : Nat} (ho : o ≤ 2) (sign small : Bool) : effOr o sign small ≤ 2 := by
  unfold effOr; cases sign <;> cases small <;> simp <;> first | omega | (split <;> omega)

/-- The transformation with the orientation as it is used. -/
def transK (e : Elem 2) (k : Nat) (sign : Bool) : Elem 2 :=
  let h := len .tri e.level
  let y := if sign then (if e.type = 0 then e.x 0 - e.x 1 else e.x 0 - e.x 1 - h) else e.x 1
  let x := e.x 0
  if k = 0 then ⟨fun i => if i.val = 0 then x else y, e.level, e.type⟩
  else if k = 1 then
    ⟨fun i => if i.val = 0 then rootLen .tri - h - y else if e.type = 0 then x - y else x - y - h, e.level, e.type⟩
  else
    ⟨fun i => if i.val = 0 then (if e.type = 0 then rootLen .tri - h + y - x else rootLen .tri + y - x)
      else rootLen .tri - h - x, e.level, e.type⟩

theorem transK_eq (e : Elem 2) (o : Nat) (sign small : Bool) :
    transformFace e o sign small = transK e (effOr o sign small) sign := rfl

theorem transform_level (e : Elem 2) (o : Nat) (sign small : Bool) : (transformFace e o sign small).level = e.level := by
  simp only [transformFace]; split_ifs <;> rfl

theorem transform_type (e : Elem 2) (o : Nat) (sign small : Bool) : (transformFace e o sign small).type = e.type := by
  simp only [transformFace]; split_ifs <;> rfl

theorem len_tri (l : Nat) : (len .tri l).toNat = size .tri l := len_toNat (c := .tri) l

theorem sub_nat {a b : BitVec 32} {m n : Nat} (ha : a.toNat = m) (hb : b.toNat = n) (h : n ≤ m) : (a - b).toNat = m - n := by
  rw [BitVec.toNat_sub_of_le (BitVec.le_def.2 (by rw [ha, hb]; exact h)), ha, hb]

theorem add_nat {a b : BitVec 32} {m n : Nat} (ha : a.toNat = m) (hb : b.toNat = n) (h : m + n < 2 ^ 32) :
    (a + b).toNat = m + n := by
  rw [BitVec.toNat_add, ha, hb, Nat.mod_eq_of_lt h]

/-- The second coordinate after the exchange of the axes. -/
def yAfter (e : Elem 2) (sign : Bool) : BitVec 32 :=
  if sign then (if e.type = 0 then e.x 0 - e.x 1 else e.x 0 - e.x 1 - len .tri e.level) else e.x 1

theorem transK_0 (e : Elem 2) (sign : Bool) : (transK e 0 sign).x = fun i => if i.val = 0 then e.x 0 else yAfter e sign := rfl

theorem transK_1 (e : Elem 2) (sign : Bool) : (transK e 1 sign).x = fun i =>
    if i.val = 0 then rootLen .tri - len .tri e.level - yAfter e sign
    else if e.type = 0 then e.x 0 - yAfter e sign else e.x 0 - yAfter e sign - len .tri e.level := rfl

theorem transK_2 (e : Elem 2) (sign : Bool) : (transK e 2 sign).x = fun i =>
    if i.val = 0 then (if e.type = 0 then rootLen .tri - len .tri e.level + yAfter e sign - e.x 0
      else rootLen .tri + yAfter e sign - e.x 0)
    else rootLen .tri - len .tri e.level - e.x 0 := rfl

/-- The numbers that describe a triangle. -/
structure Nums (e : Elem 2) (X Y h t : Nat) : Prop where
  x : (e.x (0 : Fin 2)).toNat = X
  y : (e.x (1 : Fin 2)).toNat = Y
  size : size .tri e.level = h
  type : e.type = t
  le : Y + t * h ≤ X
  bound : X + h ≤ 2 ^ Cls.tri.maxLevel
  t2 : t = 0 ∨ t = 1
  pos : 0 < h

theorem nums {e : Elem 2} (he : Valid .tri e) :
    Nums e (e.x (0 : Fin 2)).toNat (e.x (1 : Fin 2)).toNat (size .tri e.level) e.type := by
  have ha := he.aligned
  have ht : e.type < 2 := ha.2
  have hin := (inside_tri ht).1 (valid_iff.1 he).2
  change (e.x (1 : Fin 2)).toNat < (e.x (0 : Fin 2)).toNat ∨ (e.x (1 : Fin 2)).toNat = (e.x (0 : Fin 2)).toNat ∧ _ at hin
  have m0 := x_add_le ha (0 : Fin 2)
  have r01 := x_rel ha (0 : Fin 2) (1 : Fin 2)
  have hp := size_pos .tri e.level
  have h2 : e.type = 0 ∨ e.type = 1 := by omega
  refine ⟨rfl, rfl, rfl, rfl, ?_, m0, h2, hp⟩
  rcases h2 with t | t <;> rw [t] <;> omega

/-- The coordinates of the transformed triangle. -/
def newX (R X Y h t k : Nat) (sign : Bool) : Nat :=
  if k = 0 then X else if (k = 1 ∧ sign = false) ∨ (k = 2 ∧ sign = true) then R - h - Y else R - h - (X - Y - t * h)

def newY (R X Y h t k : Nat) (sign : Bool) : Nat :=
  if k = 2 then R - h - X else if (k = 0 ∧ sign = false) ∨ (k = 1 ∧ sign = true) then Y else X - Y - t * h

theorem transK_nums {e : Elem 2} {X Y h t : Nat} (hn : Nums e X Y h t) {k : Nat} (hk : k ≤ 2) (sign : Bool) :
    Nums (transK e k sign) (newX (2 ^ Cls.tri.maxLevel) X Y h t k sign) (newY (2 ^ Cls.tri.maxLevel) X Y h t k sign) h t := by
  obtain ⟨h1, h2, h3, h4, h5, h6, h7, h8⟩ := hn
  have hM : 2 ^ Cls.tri.maxLevel < 2 ^ 30 := pow_max_lt .tri
  have hl : (len .tri e.level).toNat = h := by rw [len_tri, h3]
  have hR : (rootLen .tri).toNat = 2 ^ Cls.tri.maxLevel := by decide
  generalize hRM : 2 ^ Cls.tri.maxLevel = R at *
  have hth : t * h ≤ X := by omega
  have hya : (yAfter e sign).toNat = if sign then X - Y - t * h else Y := by
    simp only [yAfter]
    cases sign
    · exact h2
    · simp only [if_true, h4]
      rcases h7 with rfl | rfl
      · simp only [if_true, Nat.zero_mul, Nat.sub_zero]
        exact sub_nat h1 h2 (by omega)
      · simp only [Nat.one_ne_zero, if_false, Nat.one_mul]
        exact sub_nat (sub_nat h1 h2 (by omega)) hl (by omega)
  have hlev : (transK e k sign).level = e.level := by simp only [transK]; split_ifs <;> rfl
  have hty : (transK e k sign).type = e.type := by simp only [transK]; split_ifs <;> rfl
  have hW : ∃ W, (yAfter e sign).toNat = W ∧ W + t * h ≤ X ∧ W = if sign then X - Y - t * h else Y := by
    refine ⟨_, hya, ?_, rfl⟩
    cases sign
    · exact h5
    · simp only [if_true]; omega
  obtain ⟨W, w1, w2, w3⟩ := hW
  have hx0 : ((transK e k sign).x (0 : Fin 2)).toNat = if k = 0 then X else if k = 1 then R - h - W else R - h - (X - W - t * h) := by
    interval_cases k
    · exact h1
    · rw [transK_1]
      exact sub_nat (sub_nat hR hl (by omega)) w1 (by omega)
    · rw [transK_2]
      simp only [Fin.val_zero, if_true, h4]
      rcases h7 with rfl | rfl
      · simp only [if_true]
        refine (sub_nat (add_nat (sub_nat hR hl (by omega)) w1 (by omega)) h1 (by omega)).trans ?_
        show R - h + W - X = R - h - (X - W - 0 * h)
        omega
      · simp only [Nat.one_ne_zero, if_false]
        refine (sub_nat (add_nat hR w1 (by omega)) h1 (by omega)).trans ?_
        show R + W - X = R - h - (X - W - 1 * h)
        omega
  have hx1 : ((transK e k sign).x (1 : Fin 2)).toNat = if k = 0 then W else if k = 1 then X - W - t * h else R - h - X := by
    interval_cases k
    · exact w1
    · rw [transK_1]
      simp only [Fin.val_one, Nat.one_ne_zero, if_false, h4]
      rcases h7 with rfl | rfl
      · simp only [if_true]
        refine (sub_nat h1 w1 (by omega)).trans ?_
        show X - W = X - W - 0 * h
        omega
      · simp only [Nat.one_ne_zero, if_false]
        refine (sub_nat (sub_nat h1 w1 (by omega)) hl (by omega)).trans ?_
        show X - W - h = X - W - 1 * h
        omega
    · rw [transK_2]
      exact sub_nat (sub_nat hR hl (by omega)) h1 (by omega)
  have ex : newX R X Y h t k sign = if k = 0 then X else if k = 1 then R - h - W else R - h - (X - W - t * h) := by
    rw [w3]
    simp only [newX]
    interval_cases k <;> cases sign <;> simp <;> omega
  have ey : newY R X Y h t k sign = if k = 0 then W else if k = 1 then X - W - t * h else R - h - X := by
    rw [w3]
    simp only [newY]
    interval_cases k <;> cases sign <;> simp <;> omega
  refine ⟨hx0.trans ex.symm, hx1.trans ey.symm, by rw [hlev, h3], by rw [hty, h4], ?_, ?_, h7, h8⟩
  · rw [ex, ey]
    interval_cases k <;> simp <;> omega
  · rw [ex, hRM]
    interval_cases k <;> simp <;> omega

theorem transK_valid {e : Elem 2} (he : Valid .tri e) {k : Nat} (hk : k ≤ 2) (sign : Bool) : Valid .tri (transK e k sign) := by
  have ha := he.aligned
  have hn := nums he
  have hn' := transK_nums hn hk sign
  have hlev : (transK e k sign).level = e.level := by simp only [transK]; split_ifs <;> rfl
  have hty : (transK e k sign).type = e.type := by simp only [transK]; split_ifs <;> rfl
  have d0 := x_dvd ha (0 : Fin 2)
  have d1 := x_dvd ha (1 : Fin 2)
  have dR := size_dvd .tri e.level
  have dd : size .tri e.level ∣ (e.x (0 : Fin 2)).toNat - (e.x (1 : Fin 2)).toNat - e.type * size .tri e.level :=
    Nat.dvd_sub (Nat.dvd_sub d0 d1) (Nat.dvd_mul_left _ _)
  have dRh : size .tri e.level ∣ 2 ^ Cls.tri.maxLevel - size .tri e.level := Nat.dvd_sub dR (Nat.dvd_refl _)
  have ht2 : (transK e k sign).type < 2 := by rw [hty]; exact ha.2
  refine valid_iff.2 ⟨⟨⟨by show (transK e k sign).level ≤ _; rw [hlev]; exact ha.1.1, fun i => ?_⟩, ht2⟩, ?_⟩
  · show ((transK e k sign).x i).toNat < _ ∧ size .tri (transK e k sign).level ∣ ((transK e k sign).x i).toNat
    rw [hlev]
    have h2' : ∀ i : Fin 2, i = 0 ∨ i = 1 := by decide
    have hb := hn'.bound
    have hle := hn'.le
    have hp := hn'.pos
    rcases h2' i with rfl | rfl
    · rw [hn'.x]
      refine ⟨by omega, ?_⟩
      simp only [newX]
      split_ifs
      exacts [d0, Nat.dvd_sub dRh d1, Nat.dvd_sub dRh dd]
    · rw [hn'.y]
      refine ⟨by omega, ?_⟩
      simp only [newY]
      split_ifs
      exacts [Nat.dvd_sub dRh d0, d1, dd]
  · rw [inside_tri ht2]
    change ((transK e k sign).x (1 : Fin 2)).toNat < ((transK e k sign).x (0 : Fin 2)).toNat ∨
      ((transK e k sign).x (1 : Fin 2)).toNat = ((transK e k sign).x (0 : Fin 2)).toNat ∧ _
    rw [hn'.x, hn'.y]
    have hle := hn'.le
    have hp := hn'.pos
    have h2 := hn'.t2
    rw [hty]
    generalize newX _ _ _ _ _ k sign = A at *
    generalize newY _ _ _ _ _ k sign = B at *
    rcases h2 with h | h
    · rw [h] at hle
      omega
    · rw [h, Nat.one_mul] at hle
      omega

/-- The orientation of the inverse. -/
def invOr (k : Nat) (sign : Bool) : Nat := if sign then k else (3 - k) % 3

theorem transK_inv {e : Elem 2} (he : Valid .tri e) {k : Nat} (hk : k ≤ 2) (sign : Bool) :
    transK (transK e k sign) (invOr k sign) sign = e := by
  have hn := nums he
  have hn' := transK_nums hn hk sign
  have hk' : invOr k sign ≤ 2 := by simp only [invOr]; split <;> omega
  have hn'' := transK_nums hn' hk' sign
  have lev : ∀ (e : Elem 2) k, (transK e k sign).level = e.level := by intro e k; simp only [transK]; split_ifs <;> rfl
  have ty : ∀ (e : Elem 2) k, (transK e k sign).type = e.type := by intro e k; simp only [transK]; split_ifs <;> rfl
  have h5 := hn.le
  have h6 := hn.bound
  refine elem_ext (c := .tri) (by rw [lev, lev]) (by rw [ty, ty]) fun i => ?_
  have h2' : ∀ i : Fin 2, i = 0 ∨ i = 1 := by decide
  generalize 2 ^ Cls.tri.maxLevel = R at *
  rcases h2' i with rfl | rfl
  · refine hn''.x.trans ?_
    clear hn hn' hn'' lev ty
    generalize size .tri e.level = h at *
    generalize e.type = t at *
    have : newX R (newX R (e.x (0 : Fin 2)).toNat (e.x (1 : Fin 2)).toNat h t k sign)
      (newY R (e.x (0 : Fin 2)).toNat (e.x (1 : Fin 2)).toNat h t k sign) h t (invOr k sign) sign = (e.x (0 : Fin 2)).toNat := by
      generalize (e.x (0 : Fin 2)).toNat = X at *
      generalize (e.x (1 : Fin 2)).toNat = Y at *
      interval_cases k <;> cases sign <;> simp [newX, newY, invOr] <;> omega
    exact this
  · refine hn''.y.trans ?_
    clear hn hn' hn'' lev ty
    generalize size .tri e.level = h at *
    generalize e.type = t at *
    have : newY R (newX R (e.x (0 : Fin 2)).toNat (e.x (1 : Fin 2)).toNat h t k sign)
      (newY R (e.x (0 : Fin 2)).toNat (e.x (1 : Fin 2)).toNat h t k sign) h t (invOr k sign) sign = (e.x (1 : Fin 2)).toNat := by
      generalize (e.x (0 : Fin 2)).toNat = X at *
      generalize (e.x (1 : Fin 2)).toNat = Y at *
      interval_cases k <;> cases sign <;> simp [newX, newY, invOr] <;> omega
    exact this

/-- The transformation as a map of points. -/
theorem transK_points {e : Elem 2} (he : Valid .tri e) {k : Nat} (hk : k ≤ 2) (sign : Bool) {p q : Fin 2 → Nat}
    (hp : p ∈ Points .tri (root .tri))
    (hq : ((q 0 : Int), (q 1 : Int)) = triSymmetry (2 ^ Cls.tri.maxLevel : Nat) k sign ((p 0 : Int), (p 1 : Int))) :
    p ∈ Points .tri e ↔ q ∈ Points .tri (transK e k sign) := by
  have hn := nums he
  have hn' := transK_nums hn hk sign
  have ht2 : e.type < 2 := he.aligned.2
  have ht2' : (transK e k sign).type < 2 := by rw [hn'.type]; exact ht2
  rw [mem_points_root_tri] at hp
  rw [mem_points_tri ht2, mem_points_tri ht2', hn'.x, hn'.y, hn'.size, hn'.type]
  have h5 := hn.le
  have h6 := hn.bound
  have h7 := hn.t2
  have hpos := hn.pos
  clear hn hn' ht2'
  simp only [triSymmetry, triWeight, Prod.mk.injEq] at hq
  generalize 2 ^ Cls.tri.maxLevel = R at *
  generalize size .tri e.level = h at *
  generalize e.type = t at *
  change (e.x (1 : Fin 2)).toNat + _ ≤ (e.x (0 : Fin 2)).toNat at h5
  change (e.x (0 : Fin 2)).toNat + _ ≤ _ at h6
  generalize (e.x (0 : Fin 2)).toNat = X at *
  generalize (e.x (1 : Fin 2)).toNat = Y at *
  rcases h7 with rfl | rfl <;> interval_cases k <;> cases sign <;> simp [newX, newY] at * <;> omega

theorem effOr_not {o : Nat} (ho : o ≤ 2) (sign small : Bool) : effOr o sign (!small) = invOr (effOr o sign small) sign := by
  interval_cases o <;> cases sign <;> cases small <;> rfl

theorem sym_surj (R k : Nat) (hk : k ≤ 2) (sign : Bool) {q : Fin 2 → Nat} (h0 : q 0 ≤ R) (h1 : q 1 ≤ q 0) :
    ∃ p : Fin 2 → Nat, p 0 ≤ R ∧ p 1 ≤ p 0 ∧
      ((q 0 : Int), (q 1 : Int)) = triSymmetry R k sign ((p 0 : Int), (p 1 : Int)) := by
  refine ⟨fun i => if i = 0 then (triSymmetry R (invOr k sign) sign ((q 0 : Int), (q 1 : Int))).1.toNat
    else (triSymmetry R (invOr k sign) sign ((q 0 : Int), (q 1 : Int))).2.toNat, ?_⟩
  interval_cases k <;> cases sign <;> simp [triSymmetry, triWeight, invOr] <;> omega

theorem transK_parent {e : Elem 2} (he : Valid .tri e) (hl : 0 < e.level) {k : Nat} (hk : k ≤ 2) (sign : Bool) :
    transK (parent .tri e) k sign = parent .tri (transK e k sign) := by
  have lev : ∀ e : Elem 2, (transK e k sign).level = e.level := by intro e; simp only [transK]; split_ifs <;> rfl
  have hv := transK_valid he hk sign
  have hp : Valid .tri (parent .tri e) := valid_parent he hl
  have hvp := transK_valid hp hk sign
  have hpv : Valid .tri (parent .tri (transK e k sign)) := valid_parent hv (by show 0 < (transK e k sign).level; rw [lev]; exact hl)
  have hsub : ∀ x : Elem 2, Valid .tri x → 0 < x.level → Points .tri x ⊆ Points .tri (parent .tri x) := by
    intro x hx h0
    have pv := valid_parent hx h0
    have hcl : (parent .tri x).level < Cls.tri.maxLevel := by
      have : x.level ≤ Cls.tri.maxLevel := hx.1.1
      show x.level - 1 < _
      omega
    have hch := child_parent hx.aligned h0
    have := points_child pv.aligned hcl (childId_lt hx.aligned)
    rw [hch] at this
    exact this
  refine points_unique (c := .tri) (x := transK e k sign) hv.aligned.2 hvp.aligned hpv.aligned ?_ ?_ (hsub _ hv ?_)
  · show (transK (parent .tri e) k sign).level = (transK e k sign).level - 1
    rw [lev, lev]
    rfl
  · intro q hq
    have hqr := mem_points_root_tri.1 (hv.2.2 hq)
    obtain ⟨p, p0, p1, hpq⟩ := sym_surj (2 ^ Cls.tri.maxLevel) k hk sign hqr.1 hqr.2
    have hpr : p ∈ Points .tri (root .tri) := mem_points_root_tri.2 ⟨p0, p1⟩
    exact (transK_points hp hk sign hpr hpq).1 (hsub _ he hl ((transK_points he hk sign hpr hpq).2 hq))
  · show 0 < (transK e k sign).level
    rw [lev]; exact hl

end T8.Simplex
