/-
The product of two refinement trees: pairs of elements of the same level, where a pair is refined by refining both
factors. Prisms are such pairs.
-/
import Verif.Lemmas.Regular

namespace T8.RTree

variable {A B : RTree} {p q : Nat}

theorem mix_lt {i j : Nat} (hi : i < p) (hj : j < q) : i + p * j < p * q := by
  calc i + p * j < p + p * j := by omega
    _ = p * (j + 1) := by rw [Nat.mul_succ, Nat.add_comm]
    _ ≤ p * q := Nat.mul_le_mul_left _ hj

/-- The product, up to level `M`. Child `i` consists of child `i % p` of the first and child `i / p` of the second
factor. -/
@[reducible] def prod (A B : RTree) (p q M : Nat) (hA : A.Regular p) (hB : B.Regular q) (h1 : M ≤ A.maxLevel)
    (h2 : M ≤ B.maxLevel) : RTree where
  E := A.E × B.E
  Valid e := A.Valid e.1 ∧ B.Valid e.2 ∧ A.level e.1 = B.level e.2 ∧ B.level e.2 ≤ M
  maxLevel := M
  level e := B.level e.2
  root := (A.root, B.root)
  nc _ := p * q
  child e i := (A.child e.1 (i % p), B.child e.2 (i / p))
  parent e := (A.parent e.1, B.parent e.2)
  childId e := A.childId e.1 + p * B.childId e.2
  valid_root := ⟨A.valid_root, B.valid_root, by rw [A.level_root, B.level_root], by rw [B.level_root]; omega⟩
  level_root := B.level_root
  root_unique := fun e he hl => Prod.ext (A.root_unique _ he.1 (by rw [he.2.2.1]; exact hl)) (B.root_unique _ he.2.1 hl)
  level_le := fun e he => he.2.2.2
  nc_pos := fun e he => Nat.mul_pos (by rw [← hA e.1 he.1]; exact A.nc_pos _ he.1) (by rw [← hB e.2 he.2.1]; exact B.nc_pos _ he.2.1)
  valid_child := by
    intro e i he hl hi
    have hp : 0 < p := hA e.1 he.1 ▸ A.nc_pos _ he.1
    have e1 : i % p < A.nc e.1 := by rw [hA e.1 he.1]; exact Nat.mod_lt _ hp
    have e2 : i / p < B.nc e.2 := by rw [hB e.2 he.2.1]; exact Nat.div_lt_of_lt_mul hi
    have l1 : A.level e.1 < A.maxLevel := by rw [he.2.2.1]; omega
    have l2 : B.level e.2 < B.maxLevel := by omega
    refine ⟨A.valid_child _ _ he.1 l1 e1, B.valid_child _ _ he.2.1 l2 e2, ?_, ?_⟩
    · rw [A.level_child _ _ he.1 l1 e1, B.level_child _ _ he.2.1 l2 e2, he.2.2.1]
    · rw [B.level_child _ _ he.2.1 l2 e2]; exact hl
  level_child := by
    intro e i he hl hi
    exact B.level_child _ _ he.2.1 (by omega) (by rw [hB e.2 he.2.1]; exact Nat.div_lt_of_lt_mul hi)
  parent_child := by
    intro e i he hl hi
    have hp : 0 < p := hA e.1 he.1 ▸ A.nc_pos _ he.1
    exact Prod.ext (A.parent_child _ _ he.1 (by rw [he.2.2.1]; omega) (by rw [hA e.1 he.1]; exact Nat.mod_lt _ hp))
      (B.parent_child _ _ he.2.1 (by omega) (by rw [hB e.2 he.2.1]; exact Nat.div_lt_of_lt_mul hi))
  childId_child := by
    intro e i he hl hi
    have hp : 0 < p := hA e.1 he.1 ▸ A.nc_pos _ he.1
    have a := A.childId_child _ _ he.1 (by rw [he.2.2.1]; omega)
      (show i % p < A.nc e.1 by rw [hA e.1 he.1]; exact Nat.mod_lt _ hp)
    have b := B.childId_child _ _ he.2.1 (by omega)
      (show i / p < B.nc e.2 by rw [hB e.2 he.2.1]; exact Nat.div_lt_of_lt_mul hi)
    show A.childId (A.child e.1 (i % p)) + p * B.childId (B.child e.2 (i / p)) = i
    rw [a, b]
    exact Nat.mod_add_div i p
  valid_parent := by
    intro e he hl
    have a := A.level_parent _ he.1 (by rw [he.2.2.1]; exact hl)
    have b := B.level_parent _ he.2.1 hl
    refine ⟨A.valid_parent _ he.1 (by rw [he.2.2.1]; exact hl), B.valid_parent _ he.2.1 hl, ?_, ?_⟩
    · have := he.2.2.1; show A.level (A.parent e.1) = B.level (B.parent e.2); omega
    · have := he.2.2.2; show B.level (B.parent e.2) ≤ M; omega
  level_parent := fun e he hl => B.level_parent _ he.2.1 hl
  childId_lt := by
    intro e he hl
    have a := A.childId_lt _ he.1 (by rw [he.2.2.1]; exact hl)
    have b := B.childId_lt _ he.2.1 hl
    rw [hA _ (A.valid_parent _ he.1 (by rw [he.2.2.1]; exact hl))] at a
    rw [hB _ (B.valid_parent _ he.2.1 hl)] at b
    exact mix_lt a b
  child_parent := by
    intro e he hl
    have a := A.childId_lt _ he.1 (by rw [he.2.2.1]; exact hl)
    rw [hA _ (A.valid_parent _ he.1 (by rw [he.2.2.1]; exact hl))] at a
    show (A.child (A.parent e.1) ((A.childId e.1 + p * B.childId e.2) % p),
      B.child (B.parent e.2) ((A.childId e.1 + p * B.childId e.2) / p)) = e
    have e1 : (A.childId e.1 + p * B.childId e.2) % p = A.childId e.1 := by
      rw [Nat.add_mul_mod_self_left, Nat.mod_eq_of_lt a]
    have e2 : (A.childId e.1 + p * B.childId e.2) / p = B.childId e.2 := by
      rw [Nat.add_mul_div_left _ _ (by omega), Nat.div_eq_of_lt a, Nat.zero_add]
    rw [e1, e2, A.child_parent _ he.1 (by rw [he.2.2.1]; exact hl), B.child_parent _ he.2.1 hl]

variable {M : Nat} {hA : A.Regular p} {hB : B.Regular q} {h1 : M ≤ A.maxLevel} {h2 : M ≤ B.maxLevel}

theorem prod_regular : (prod A B p q M hA hB h1 h2).Regular (p * q) := fun _ _ => rfl

theorem prod_parent_iter (e : A.E × B.E) (n : Nat) :
    ((prod A B p q M hA hB h1 h2).parent)^[n] e = (A.parent^[n] e.1, B.parent^[n] e.2) := by
  induction n generalizing e with
  | zero => rfl
  | succ n ih => rw [Function.iterate_succ_apply, ih]; rfl

theorem prod_anc {e : A.E × B.E} (he : (prod A B p q M hA hB h1 h2).Valid e) (l : Nat) :
    (prod A B p q M hA hB h1 h2).anc e l = (A.anc e.1 l, B.anc e.2 l) := by
  show ((prod A B p q M hA hB h1 h2).parent)^[_] e = (A.parent^[A.level e.1 - l] e.1, B.parent^[B.level e.2 - l] e.2)
  rw [prod_parent_iter, he.2.2.1]

/-- Descendants of a pair. -/
theorem prod_desc_iff {a x : A.E × B.E} (ha : (prod A B p q M hA hB h1 h2).Valid a)
    (hx : (prod A B p q M hA hB h1 h2).Valid x) :
    (prod A B p q M hA hB h1 h2).Desc a x ↔ A.Desc a.1 x.1 ∧ B.Desc a.2 x.2 := by
  rw [RTree.desc_iff ha hx, RTree.desc_iff ha.1 hx.1, RTree.desc_iff ha.2.1 hx.2.1, prod_anc hx]
  have a1 := ha.2.2.1
  have x1 := hx.2.2.1
  show B.level a.2 ≤ B.level x.2 ∧ (A.anc x.1 (B.level a.2), B.anc x.2 (B.level a.2)) = a ↔ _
  rw [Prod.ext_iff, a1, x1]
  constructor
  · rintro ⟨h1, h2, h3⟩; exact ⟨⟨h1, h2⟩, h1, h3⟩
  · rintro ⟨⟨h1, h2⟩, _, h3⟩; exact ⟨h1, h2, h3⟩

/-- The interleaving of the digits of two numbers. -/
def mix (p q : Nat) : Nat → Nat → Nat → Nat
  | 0, _, _ => 0
  | n + 1, a, b => mix p q n (a / p) (b / q) * (p * q) + (a % p + p * (b % q))

theorem prod_pos (e : A.E × B.E) (he : (prod A B p q M hA hB h1 h2).Valid e) :
    pos (T := prod A B p q M hA hB h1 h2) e = mix p q (B.level e.2) (pos e.1) (pos e.2) := by
  revert e
  apply valid_induction (T := prod A B p q M hA hB h1 h2)
    (P := fun e => pos (T := prod A B p q M hA hB h1 h2) e = mix p q (B.level e.2) (pos e.1) (pos e.2))
  · show pos (T := prod A B p q M hA hB h1 h2) (prod A B p q M hA hB h1 h2).root = mix p q (B.level B.root) _ _
    rw [pos_root, B.level_root, mix]
  · intro e i he hl hi ih
    have hp : 0 < p := hA e.1 he.1 ▸ A.nc_pos _ he.1
    have e1 : i % p < p := Nat.mod_lt _ hp
    have e2 : i / p < q := Nat.div_lt_of_lt_mul hi
    have l0 : B.level e.2 < M := hl
    have l1 : A.level e.1 < A.maxLevel := by rw [he.2.2.1]; omega
    have l2 : B.level e.2 < B.maxLevel := by omega
    rw [prod_regular.pos_child he hl hi, ih]
    show _ = mix p q (B.level (B.child e.2 (i / p))) (pos (A.child e.1 (i % p))) (pos (B.child e.2 (i / p)))
    rw [B.level_child _ _ he.2.1 l2 (by rw [hB _ he.2.1]; exact e2), hA.pos_child he.1 l1 e1, hB.pos_child he.2.1 l2 e2, mix,
      Nat.add_comm (pos e.1 * p), Nat.add_comm (pos e.2 * q), Nat.add_mul_div_right _ _ hp, Nat.div_eq_of_lt e1,
      Nat.add_mul_div_right _ _ (Nat.lt_of_le_of_lt (Nat.zero_le _) e2), Nat.div_eq_of_lt e2, Nat.add_mul_mod_self_right, Nat.mod_eq_of_lt e1,
      Nat.add_mul_mod_self_right, Nat.mod_eq_of_lt e2, Nat.zero_add, Nat.zero_add, Nat.mod_add_div]

theorem mix_zero (p q n : Nat) : mix p q n 0 0 = 0 := by
  induction n with
  | zero => rfl
  | succ n ih => simp [mix, ih]

theorem mix_add (p q n a b : Nat) : mix p q n a b = mix p q n a 0 + mix p q n 0 b := by
  induction n generalizing a b with
  | zero => rfl
  | succ n ih =>
    simp only [mix, Nat.zero_div, Nat.zero_mod, Nat.mul_zero, Nat.add_zero, Nat.zero_add]
    rw [ih, Nat.add_mul]
    omega

theorem mix_shift {p q : Nat} (hp : 0 < p) (hq : 0 < q) (n k a b : Nat) :
    mix p q (n + k) (a * p ^ k) (b * q ^ k) = mix p q n a b * (p * q) ^ k := by
  induction k with
  | zero => simp
  | succ k ih =>
    have e1 : a * p ^ (k + 1) = a * p ^ k * p := by rw [Nat.pow_succ, Nat.mul_assoc]
    have e2 : b * q ^ (k + 1) = b * q ^ k * q := by rw [Nat.pow_succ, Nat.mul_assoc]
    rw [← Nat.add_assoc, mix, e1, e2, Nat.mul_div_cancel _ hp, Nat.mul_mod_left, Nat.mul_div_cancel _ hq,
      Nat.mul_mod_left, ih, Nat.mul_zero, Nat.add_zero, Nat.add_zero, Nat.mul_assoc, ← Nat.pow_succ]

/-- The last of the pairs of digits. -/
theorem mix_last {p q : Nat} (hp : 0 < p) (hq : 0 < q) (n k a b x y : Nat) (hx : x + 1 = (a + 1) * p ^ k)
    (hy : y + 1 = (b + 1) * q ^ k) : mix p q (n + k) x y + 1 = (mix p q n a b + 1) * (p * q) ^ k := by
  induction k generalizing x y with
  | zero => simp at hx hy; subst hx hy; simp
  | succ k ih =>
    have e1 : ∀ {p x a : Nat}, 0 < p → x + 1 = (a + 1) * p ^ (k + 1) →
        x / p + 1 = (a + 1) * p ^ k ∧ x % p + 1 = p := by
      intro p x a hp h
      have h0 : 0 < (a + 1) * p ^ k := Nat.mul_pos (by omega) (Nat.pow_pos hp)
      rw [Nat.pow_succ, ← Nat.mul_assoc] at h
      generalize (a + 1) * p ^ k = m at *
      obtain ⟨m, rfl⟩ : ∃ m', m = m' + 1 := ⟨m - 1, by omega⟩
      rw [Nat.add_mul, Nat.one_mul] at h
      have hx : x = p - 1 + m * p := by omega
      rw [hx, Nat.add_mul_div_right _ _ hp, Nat.div_eq_of_lt (by omega), Nat.add_mul_mod_self_right,
        Nat.mod_eq_of_lt (by omega)]
      omega
    obtain ⟨a1, a2⟩ := e1 hp hx
    obtain ⟨b1, b2⟩ := e1 hq hy
    have hi := ih _ _ a1 b1
    rw [← Nat.add_assoc, mix, Nat.pow_succ, ← Nat.mul_assoc (mix p q n a b + 1), ← hi, Nat.add_mul, Nat.one_mul]
    have h3 : x % p + p * (y % q) + 1 = p * q := by
      obtain ⟨q', rfl⟩ : ∃ q', q = q' + 1 := ⟨q - 1, by omega⟩
      have : y % (q' + 1) = q' := by omega
      rw [this, Nat.mul_add, Nat.mul_one]
      omega
    omega

theorem mix_bound {p q : Nat} (hp : 0 < p) (hq : 0 < q) (n a b : Nat) : mix p q n a b < (p * q) ^ n := by
  induction n generalizing a b with
  | zero => simp [mix]
  | succ n ih =>
    have h1 := ih (a / p) (b / q)
    have h2 := mix_lt (Nat.mod_lt a hp) (Nat.mod_lt b hq)
    rw [mix, Nat.pow_succ]
    calc _ < mix p q n (a / p) (b / q) * (p * q) + p * q := by omega
      _ = (mix p q n (a / p) (b / q) + 1) * (p * q) := by rw [Nat.add_mul, Nat.one_mul]
      _ ≤ _ := Nat.mul_le_mul_right _ h1

/-- The first digit. -/
theorem mix_top {p q : Nat} (n a b : Nat) :
    mix p q (n + 1) a b = (a / p ^ n % p + p * (b / q ^ n % q)) * (p * q) ^ n + mix p q n a b := by
  induction n generalizing a b with
  | zero => simp [mix]
  | succ n ih =>
    rw [mix, ih, mix, Nat.div_div_eq_div_mul, Nat.div_div_eq_div_mul, ← Nat.pow_succ', ← Nat.pow_succ', Nat.add_mul,
      Nat.mul_assoc, ← Nat.pow_succ, Nat.add_assoc]

end T8.RTree
