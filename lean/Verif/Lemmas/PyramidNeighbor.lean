/-
Lemmas about the default pyramids: the parents of face neighbors, in the sense of tetrahedra.
-/
import Verif.Lemmas.PyramidSwitch
import Verif.Lemmas.SimplexFaces2

namespace T8.Pyramid
open T8.RTree T8.Bits
open T8.Simplex (look Cls)

/-- The neighbor in the sense of tetrahedra. -/
abbrev nb (p : S) (f : Nat) : S := (Simplex.faceNeighbour .tet p f).1

/-- The cube id of the neighbor. -/
def nbCid (cid t f : Nat) : Nat :=
  if f = 0 then cid ^^^ 2 ^ (t / 2) else if f = 3 then cid ^^^ 2 ^ ((t + 3) % 6 / 2) else cid

abbrev ptype (cid t : Nat) : Nat := look (Simplex.cidTypeToParenttype .tet) cid t

abbrev PF (cid t f : Nat) : Option Nat := Simplex.parentFaceOf .tet cid t f

theorem nbCid_testBit : ∀ cid < 8, ∀ t < 6, ∀ f < 4, nbCid cid t f < 8 ∧ ∀ i : Fin 3, (nbCid cid t f).testBit i =
    if (f = 0 ∧ Simplex.rank .tet t i = 1) ∨ (f = 3 ∧ Simplex.rank .tet t i = 3) then !cid.testBit i else cid.testBit i := by
  decide +kernel

set_option synthInstance.maxHeartbeats 200000 in
set_option synthInstance.maxSize 1000 in
theorem nb_parent_table_none : ∀ cid < 8, ∀ t < 6, ∀ f < 4, PF cid t f = none →
    ptype (nbCid cid t f) (Simplex.nbType .tet t f) = ptype cid t ∧
      ∀ i : Fin 3, ((f = 0 ∧ Simplex.rank .tet t i = 1) → cid.testBit i = false) ∧
        ((f = 3 ∧ Simplex.rank .tet t i = 3) → cid.testBit i = true) := by
  decide +kernel

theorem PF_lt : ∀ cid < 8, ∀ t < 6, ∀ f < 4, (PF cid t f).getD 0 < 4 := by decide +kernel

/-- The parent of the neighbor is the neighbor of the parent at face `g`. -/
def NbSome (cid t f g : Nat) : Prop :=
  ptype (nbCid cid t f) (Simplex.nbType .tet t f) = Simplex.nbType .tet (ptype cid t) g ∧
    ∀ i : Fin 3, ((g = 0 ∧ Simplex.rank .tet (ptype cid t) i = 1) ↔
        (f = 0 ∧ Simplex.rank .tet t i = 1 ∧ cid.testBit i = true)) ∧
      ((g = 3 ∧ Simplex.rank .tet (ptype cid t) i = 3) ↔
        (f = 3 ∧ Simplex.rank .tet t i = 3 ∧ cid.testBit i = false))

instance (cid t f g : Nat) : Decidable (NbSome cid t f g) := by unfold NbSome; infer_instance

theorem nb_parent_table_some : ∀ cid < 8, ∀ t < 6, ∀ f < 4, ∀ g < 4, PF cid t f = some g → NbSome cid t f g := by
  decide +kernel

theorem axis_add {h P N : Nat} {bp bn : Bool} (hh : 0 < h) (h1 : 2 * h ∣ P) (h2 : 2 * h ∣ N)
    (h3 : N + (if bn then h else 0) = P + (if bp then h else 0) + h) :
    bn = !bp ∧ N = P + if bp then 2 * h else 0 := by
  have key : ¬ N = P + h := fun hc => by
    have : 2 * h ∣ h := (Nat.dvd_add_right h1).1 (hc ▸ h2)
    have := Nat.le_of_dvd hh this
    omega
  cases bp <;> cases bn <;> simp at h3 ⊢ <;> omega

theorem axis_same {h P N : Nat} {bp bn : Bool} (hh : 0 < h) (h1 : 2 * h ∣ P) (h2 : 2 * h ∣ N)
    (h3 : N + (if bn then h else 0) = P + (if bp then h else 0)) : bn = bp ∧ N = P := by
  have key : ¬ N = P + h := fun hc => by
    have : 2 * h ∣ h := (Nat.dvd_add_right h1).1 (hc ▸ h2)
    have := Nat.le_of_dvd hh this
    omega
  have key2 : ¬ P = N + h := fun hc => by
    have : 2 * h ∣ h := (Nat.dvd_add_right h2).1 (hc ▸ h1)
    have := Nat.le_of_dvd hh this
    omega
  cases bp <;> cases bn <;> simp at h3 ⊢ <;> omega

theorem size_parent {p : S} (hp : Al p) (hl : 0 < p.level) :
    Simplex.size .tet (Simplex.parent .tet p).level = 2 * Simplex.size .tet p.level := by
  have : p.level ≤ 21 := hp.1.1
  show 2 ^ (21 - (p.level - 1)) = 2 * 2 ^ (21 - p.level)
  rw [show 21 - (p.level - 1) = (21 - p.level) + 1 by omega, Nat.pow_succ, Nat.mul_comm]

/-- The coordinates of the parent of the neighbor, and the cube id of the neighbor. -/
theorem nb_axis {p : S} (hp : Al p) (hl : 0 < p.level) {f : Nat} (hf : f < 4) (hn : Al (nb p f)) (i : Fin 3) :
    ((Simplex.computeCubeid .tet (nb p f) p.level).testBit i =
      (nbCid (Simplex.computeCubeid .tet p p.level) p.type f).testBit i) ∧
    ((f = 0 ∧ Simplex.rank .tet p.type i = 1) → ((Simplex.parent .tet (nb p f)).x i).toNat =
      ((Simplex.parent .tet p).x i).toNat +
        if (Simplex.computeCubeid .tet p p.level).testBit i then 2 * Simplex.size .tet p.level else 0) ∧
    ((f = 3 ∧ Simplex.rank .tet p.type i = 3) → ((Simplex.parent .tet p).x i).toNat =
      ((Simplex.parent .tet (nb p f)).x i).toNat +
        if (Simplex.computeCubeid .tet p p.level).testBit i then 0 else 2 * Simplex.size .tet p.level) ∧
    (¬ (f = 0 ∧ Simplex.rank .tet p.type i = 1) → ¬ (f = 3 ∧ Simplex.rank .tet p.type i = 3) →
      ((Simplex.parent .tet (nb p f)).x i).toNat = ((Simplex.parent .tet p).x i).toNat) := by
  obtain ⟨r1, r2, r3⟩ := Simplex.neighbour_rest (c := .tet) (e := p) hp.2 hf
  have hnl : 0 < (nb p f).level := by rw [r1]; exact hl
  have hcid := Simplex.cubeid_lt (c := .tet) p p.level
  have hb := (nbCid_testBit _ hcid p.type hp.2 f hf).2 i
  obtain ⟨a1, a2, a3⟩ := Simplex.neighbour_toNat (c := .tet) hp hf hn i
  have ep := Simplex.x_eq_parent (c := .tet) hp hl i
  have en := Simplex.x_eq_parent (c := .tet) hn hnl i
  have dp := Simplex.x_dvd (c := .tet) (Simplex.aligned_parent (c := .tet) hp hl) i
  have dn := Simplex.x_dvd (c := .tet) (Simplex.aligned_parent (c := .tet) hn hnl) i
  rw [size_parent hp hl] at dp
  rw [size_parent hn hnl] at dn
  rw [r1] at en dn
  have hs := Simplex.size_pos .tet p.level
  change (f = 3 → Simplex.rank .tet p.type i = 3 → _) at a2
  rw [hb]
  change ¬ _ → ¬ (f = 3 ∧ Simplex.rank .tet p.type i = 3) → _ at a3
  by_cases c1 : f = 0 ∧ Simplex.rank .tet p.type i = 1
  · have := a1 c1.1 c1.2
    rw [en, ep] at this
    obtain ⟨k1, k2⟩ := axis_add hs dp dn this
    rw [if_pos (Or.inl c1)]
    exact ⟨k1, fun _ => k2, fun h => absurd (h.1.symm.trans c1.1) (by omega), fun h => absurd c1 h⟩
  · by_cases c2 : f = 3 ∧ Simplex.rank .tet p.type i = 3
    · have := a2 c2.1 c2.2
      rw [en, ep] at this
      obtain ⟨k1, k2⟩ := axis_add hs dn dp this.symm
      rw [if_pos (Or.inr c2)]
      refine ⟨?_, fun h => absurd h c1, fun _ => ?_, fun _ h => absurd c2 h⟩
      · rw [k1, Bool.not_not]
      · rw [k2, k1]
        cases (Simplex.computeCubeid .tet (nb p f) p.level).testBit i <;> rfl
    · have := a3 c1 c2
      rw [en, ep] at this
      obtain ⟨k1, k2⟩ := axis_same hs dp dn this
      rw [if_neg (fun h => h.elim c1 c2)]
      exact ⟨k1, fun h => absurd h c1, fun h => absurd h c2, fun _ _ => k2⟩

theorem nb_cubeid {p : S} (hp : Al p) (hl : 0 < p.level) {f : Nat} (hf : f < 4) (hn : Al (nb p f)) :
    Simplex.computeCubeid .tet (nb p f) p.level = nbCid (Simplex.computeCubeid .tet p p.level) p.type f :=
  Simplex.cid_ext (c := .tet) (Simplex.cubeid_lt (c := .tet) _ _)
    (nbCid_testBit _ (Simplex.cubeid_lt (c := .tet) p p.level) p.type hp.2 f hf).1 fun i => (nb_axis hp hl hf hn i).1

theorem nb_level {p : S} (hp : Al p) {f : Nat} (hf : f < 4) : (nb p f).level = p.level :=
  (Simplex.neighbour_rest (c := .tet) (e := p) hp.2 hf).1

theorem nb_type {p : S} (hp : Al p) {f : Nat} (hf : f < 4) : (nb p f).type = Simplex.nbType .tet p.type f :=
  (Simplex.neighbour_rest (c := .tet) (e := p) hp.2 hf).2.1

theorem nb_parent_type {p : S} (hp : Al p) (hl : 0 < p.level) {f : Nat} (hf : f < 4) (hn : Al (nb p f)) :
    (Simplex.parent .tet (nb p f)).type =
      ptype (nbCid (Simplex.computeCubeid .tet p p.level) p.type f) (Simplex.nbType .tet p.type f) := by
  rw [← nb_cubeid hp hl hf hn, ← nb_type hp hf]
  show ptype (Simplex.computeCubeid .tet (nb p f) (nb p f).level) _ = _
  rw [nb_level hp hf]

theorem nb_parent_none {p : S} (hp : Al p) (hl : 0 < p.level) {f : Nat} (hf : f < 4) (hn : Al (nb p f))
    (h : PF (Simplex.computeCubeid .tet p p.level) p.type f = none) :
    Simplex.parent .tet (nb p f) = Simplex.parent .tet p := by
  obtain ⟨t1, t2⟩ := nb_parent_table_none _ (Simplex.cubeid_lt (c := .tet) p p.level) p.type hp.2 f hf h
  refine Simplex.elem_ext (c := .tet) ?_ ?_ fun i => ?_
  · show (nb p f).level - 1 = p.level - 1
    rw [nb_level hp hf]
  · rw [nb_parent_type hp hl hf hn, t1]; rfl
  · obtain ⟨_, a1, a2, a3⟩ := nb_axis hp hl hf hn i
    by_cases c1 : f = 0 ∧ Simplex.rank .tet p.type i = 1
    · rw [a1 c1, (t2 i).1 c1]; rfl
    · by_cases c2 : f = 3 ∧ Simplex.rank .tet p.type i = 3
      · rw [a2 c2, (t2 i).2 c2]; rfl
      · exact a3 c1 c2

theorem nb_parent_some {p : S} (hp : Al p) (hl : 0 < p.level) {f g : Nat} (hf : f < 4) (hn : Al (nb p f))
    (h : PF (Simplex.computeCubeid .tet p p.level) p.type f = some g) :
    g < 4 ∧ Simplex.parent .tet (nb p f) = nb (Simplex.parent .tet p) g := by
  have t0 : g < 4 := by
    have := PF_lt _ (Simplex.cubeid_lt (c := .tet) p p.level) p.type hp.2 f hf
    rw [h] at this
    exact this
  obtain ⟨t1, t2⟩ := nb_parent_table_some _ (Simplex.cubeid_lt (c := .tet) p p.level) p.type hp.2 f hf g t0 h
  have hpp := Simplex.aligned_parent (c := .tet) hp hl
  obtain ⟨r1, r2, r3⟩ := Simplex.neighbour_rest (c := .tet) (e := Simplex.parent .tet p) hpp.2 (f := g) t0
  have hnl : 0 < (nb p f).level := by rw [nb_level hp hf]; exact hl
  have hnn := Simplex.aligned_parent (c := .tet) hn hnl
  refine ⟨t0, Simplex.elem_ext (c := .tet) ?_ ?_ fun i => ?_⟩
  · rw [r1]
    show (nb p f).level - 1 = p.level - 1
    rw [nb_level hp hf]
  · rw [nb_parent_type hp hl hf hn, t1, r2]; rfl
  · obtain ⟨_, a1, a2, a3⟩ := nb_axis hp hl hf hn i
    obtain ⟨s1, s2⟩ := t2 i
    rw [Simplex.neighbour_x (c := .tet) hpp.2 (f := g) t0]
    have hM : 2 ^ Cls.tet.maxLevel = 2 ^ 21 := rfl
    have l1 := Simplex.x_add_le (c := .tet) hpp i
    have l2 := Simplex.x_add_le (c := .tet) hnn i
    have hsz := size_parent hp hl
    have hsz2 := size_parent hn hnl
    rw [nb_level hp hf] at hsz2
    have hlen : (Simplex.len .tet (Simplex.parent .tet p).level).toNat = Simplex.size .tet (Simplex.parent .tet p).level :=
      Simplex.len_toNat _ _
    rw [hsz] at hlen l1
    rw [hsz2] at l2
    change (g = 0 ∧ Simplex.rank .tet (Simplex.parent .tet p).type i = 1 ↔ _) at s1
    change (g = 3 ∧ Simplex.rank .tet (Simplex.parent .tet p).type i = 3 ↔ _) at s2
    show _ = (if g = 0 ∧ Simplex.rank .tet (Simplex.parent .tet p).type i = 1 then _
      else if g = 3 ∧ Simplex.rank .tet (Simplex.parent .tet p).type i = 3 then _ else _ : BitVec 32).toNat
    rw [hM] at l1 l2
    by_cases c1 : f = 0 ∧ Simplex.rank .tet p.type i = 1
    · have a := a1 c1
      by_cases hb : (Simplex.computeCubeid .tet p p.level).testBit i = true
      · rw [if_pos (s1.2 ⟨c1.1, c1.2, hb⟩), a, if_pos hb, BitVec.toNat_add, hlen, Nat.mod_eq_of_lt (by omega)]
      · rw [if_neg (fun h => hb (s1.1 h).2.2), if_neg (fun h => by have := (s2.1 h).1; omega), a, if_neg hb, Nat.add_zero]
    · by_cases c2 : f = 3 ∧ Simplex.rank .tet p.type i = 3
      · have a := a2 c2
        rw [if_neg (fun h => c1 ⟨(s1.1 h).1, (s1.1 h).2.1⟩)]
        by_cases hb : (Simplex.computeCubeid .tet p p.level).testBit i = true
        · rw [if_neg (fun h => by have := (s2.1 h).2.2; rw [hb] at this; exact absurd this (by decide)), a, if_pos hb, Nat.add_zero]
        · rw [if_pos (s2.2 ⟨c2.1, c2.2, by simpa using hb⟩)]
          rw [if_neg hb] at a
          have hle : Simplex.len .tet (Simplex.parent .tet p).level ≤ (Simplex.parent .tet p).x i := by
            rw [BitVec.le_def, hlen]; omega
          rw [BitVec.toNat_sub_of_le hle, hlen]
          omega
      · rw [if_neg (fun h => c1 ⟨(s1.1 h).1, (s1.1 h).2.1⟩), if_neg (fun h => c2 ⟨(s2.1 h).1, (s2.1 h).2.1⟩), a3 c1 c2]

/-! ### Which neighbors are parts of pyramids -/

set_option synthInstance.maxHeartbeats 200000 in
set_option synthInstance.maxSize 1000 in
theorem tableB : ∀ cid < 8, ∀ t < 6, ∀ f < 4, (t ≠ 0 ∧ t ≠ 3) → (ptype cid t = 0 ∨ ptype cid t = 3) →
    (PF cid t f).isSome = true → (Simplex.nbType .tet t f = 0 ∨ Simplex.nbType .tet t f = 3) := by decide +kernel

theorem not_cl_of_parent {p : S} (hl : 0 < p.level) (h : ¬ Cl (Simplex.parent .tet p)) : ¬ Cl p :=
  fun hc => h ((cl_parent hl).1 hc).2

theorem not_cl_of_type {p : S} (h : p.type = 0 ∨ p.type = 3) : ¬ Cl p := fun hc => by
  have := hc p.level (le_refl _)
  rw [ct_self] at this
  omega

/-- The neighbors of a tetrahedron of type 1, 2, 4 or 5 are tetrahedra. -/
theorem not_cl_nb {p : S} (hp : Al p) (ht : p.type ≠ 0 ∧ p.type ≠ 3) (hc : ¬ Cl p) {f : Nat} (hf : f < 4)
    (hn : Al (nb p f)) : ¬ Cl (nb p f) := by
  induction hk : p.level generalizing p f with
  | zero =>
    refine absurd (fun i hi => ?_) hc
    have : i = p.level := by omega
    rw [this, ct_self]; exact ht
  | succ k ih =>
    have hl : 0 < p.level := by omega
    have hnl : 0 < (nb p f).level := by rw [nb_level hp hf]; exact hl
    have hq : ¬ Cl (Simplex.parent .tet p) := fun h => hc ((cl_parent hl).2 ⟨ht, h⟩)
    cases hPF : PF (Simplex.computeCubeid .tet p p.level) p.type f with
    | none =>
      apply not_cl_of_parent hnl
      rw [nb_parent_none hp hl hf hn hPF]
      exact hq
    | some g =>
      obtain ⟨hg, he⟩ := nb_parent_some hp hl hf hn hPF
      have hqa := Simplex.aligned_parent (c := .tet) hp hl
      by_cases hqt : (Simplex.parent .tet p).type = 0 ∨ (Simplex.parent .tet p).type = 3
      · apply not_cl_of_type
        rw [nb_type hp hf]
        exact tableB _ (Simplex.cubeid_lt (c := .tet) p p.level) p.type hp.2 f hf ht hqt (by rw [hPF]; rfl)
      · apply not_cl_of_parent hnl
        rw [he]
        refine ih hqa (by omega) hq hg ?_ (by rw [parent_level]; omega)
        rw [← he]
        exact Simplex.aligned_parent (c := .tet) hn hnl

/-- The faces of the tetrahedra at the square face of their pyramid. -/
def quadFace (t : Nat) : Nat := if t = 1 ∨ t = 2 then 3 else 0

set_option synthInstance.maxHeartbeats 200000 in
set_option synthInstance.maxSize 1000 in
theorem tableC : ∀ cid < 8, ∀ t < 6, (t ≠ 0 ∧ t ≠ 3) → 
    (Simplex.nbType .tet t (quadFace t) ≠ 0 ∧ Simplex.nbType .tet t (quadFace t) ≠ 3) ∧
    ((ptype cid t ≠ 0 ∧ ptype cid t ≠ 3) →
      PF cid t (quadFace t) = none ∨ PF cid t (quadFace t) = some (quadFace (ptype cid t))) := by decide +kernel

theorem quadFace_lt (t : Nat) : quadFace t < 4 := by rw [quadFace]; split <;> omega

/-- The neighbor of a pyramid at the square face is a pyramid. -/
theorem cl_nb {p : S} (hp : Al p) (hc : Cl p) (hn : Al (nb p (quadFace p.type))) : Cl (nb p (quadFace p.type)) := by
  induction hk : p.level generalizing p with
  | zero =>
    have ht : p.type ≠ 0 ∧ p.type ≠ 3 := by rw [← ct_self p]; exact hc _ (le_refl _)
    have hf := quadFace_lt p.type
    obtain ⟨t1, _⟩ := tableC 0 (by omega) p.type hp.2 ht
    intro i hi
    have : i = (nb p (quadFace p.type)).level := by rw [nb_level hp hf] at hi ⊢; omega
    rw [this, ct_self, nb_type hp hf]
    exact t1
  | succ k ih =>
    have hl : 0 < p.level := by omega
    have hf := quadFace_lt p.type
    have hnl : 0 < (nb p (quadFace p.type)).level := by rw [nb_level hp hf]; exact hl
    obtain ⟨ht, hq⟩ := (cl_parent hl).1 hc
    have hqt : (Simplex.parent .tet p).type ≠ 0 ∧ (Simplex.parent .tet p).type ≠ 3 := by
      rw [← ct_self (Simplex.parent .tet p)]; exact hq _ (le_refl _)
    have hqa := Simplex.aligned_parent (c := .tet) hp hl
    obtain ⟨t1, t2⟩ := tableC _ (Simplex.cubeid_lt (c := .tet) p p.level) p.type hp.2 ht
    rw [cl_parent hnl, nb_type hp hf]
    refine ⟨t1, ?_⟩
    rcases t2 hqt with h | h
    · rw [nb_parent_none hp hl hf hn h]
      exact hq
    · obtain ⟨_, he⟩ := nb_parent_some hp hl hf hn h
      have hnn := Simplex.aligned_parent (c := .tet) hn hnl
      rw [he] at hnn ⊢
      exact ih hqa hq hnn (by rw [parent_level]; omega)

/-! ### Tetrahedra of type 0 or 3 -/

/-- `t8_dpyramid_tet_pyra_face_connection` as a function of the cube id and the type. -/
def conn (cid t f : Nat) : Bool :=
  if (cid = 2 ∧ f ≠ 1) ∨ (cid = 6 ∧ f ≠ 2) then t == 0
  else if (cid = 1 ∧ f ≠ 1) ∨ (cid = 5 ∧ f ≠ 2) then t == 3
  else if cid = 3 then f != 0
  else if cid = 4 then f != 3
  else false

theorem conn_eq (e : Elem) (f : Nat) :
    tetPyraFaceConnection e f = conn (Simplex.computeCubeid .tet e.tet e.level) e.type f := by
  rw [tetPyraFaceConnection, cubeid_eq]; rfl

/-- The face between the two tetrahedra of a pyramid. -/
def innerFace (t : Nat) : Nat := if t = 1 ∨ t = 2 then 1 else 2

set_option synthInstance.maxHeartbeats 200000 in
set_option synthInstance.maxSize 1000 in
theorem tableA : ∀ cid < 8, ∀ t ∈ [0, 3], ∀ f < 4, (ptype cid t ≠ 0 ∧ ptype cid t ≠ 3) →
    (Simplex.nbType .tet t f ≠ 0 ∧ Simplex.nbType .tet t f ≠ 3) ∧
    (conn cid t f = true ↔ PF cid t f = none ∨ PF cid t f = some (innerFace (ptype cid t))) ∧
    (PF cid t f = none ∨ PF cid t f = some (innerFace (ptype cid t)) ∨ (PF cid t f).isSome = true ∧
      (Simplex.nbType .tet (ptype cid t) ((PF cid t f).getD 0) = 0 ∨
        Simplex.nbType .tet (ptype cid t) ((PF cid t f).getD 0) = 3)) := by decide +kernel

theorem inner_table : ∀ b ∈ [6, 7], ∀ t ∈ slots b, Simplex.nbType .tet t (innerFace t) ∈ slots b ∧
    innerFace t ≠ 0 ∧ innerFace t ≠ 3 ∧ innerFace t < 4 := by decide +kernel

/-- The two tetrahedra of a pyramid are neighbors. -/
theorem nb_inner {e : Elem} (he : Good e) (h6 : 6 ≤ e.type) {t : Nat} (ht : t ∈ slots e.type) :
    ∃ t' ∈ slots e.type, nb (part e t) (innerFace t) = part e t' := by
  have hb := (he.pyra h6).1
  obtain ⟨t1, t2, t3, t4⟩ := inner_table e.type (by simpa using hb) t ht
  have ha := part_aligned he ht
  refine ⟨_, t1, Simplex.elem_ext (c := .tet) (nb_level ha t4) (nb_type ha t4) fun i => ?_⟩
  rw [Simplex.neighbour_x (c := .tet) (e := part e t) ha.2 t4, if_neg (fun h => t2 h.1), if_neg (fun h => t3 h.1)]
  rfl

theorem tetBoundaryLoop_parent {e q : Elem} (f b : Nat) (i : Nat)
    (h : ∀ k, 0 < k → k ≤ i → computeCubeid q k = computeCubeid e k) (t : Nat) :
    tetBoundaryLoop e f b i t = tetBoundaryLoop q f b i t := by
  induction i generalizing t with
  | zero => rfl
  | succ i ih =>
    rw [tetBoundaryLoop, tetBoundaryLoop, h (i + 1) (by omega) (le_refl _)]
    simp only [ih (fun k h1 h2 => h k h1 (by omega))]

def bey (f cid t : Nat) : Bool :=
  (faceChildidToIsInside.getD f []).getD (look (Simplex.typeCidToBeyid .tet) t cid) false

theorem tetBoundary_step {e : Elem} (he : Valid e) (h6 : ¬ 6 ≤ e.type) (hs : e.switch ≠ e.level) (f : Nat) :
    tetBoundary e f = (bey f (Simplex.computeCubeid .tet e.tet e.level) e.type && tetBoundary (parent e) f) := by
  obtain ⟨g1, g2, g3⟩ := he.good.tet h6
  have hl21 : e.level ≤ 21 := he.good.cube.1
  have hl : 0 < e.level := by omega
  have hs2 : e.switch.toNat < e.level := by omega
  have hp := parent_tet' h6 hs
  have vp : Valid (parent e) := tree.valid_parent e he hl
  have pl : (parent e).level = e.level - 1 := by rw [hp]; rfl
  have psw : (parent e).switch = e.switch := by rw [hp]
  have ptp : (parent e).type = ptype (Simplex.computeCubeid .tet e.tet e.level) e.type := by rw [hp]; rfl
  have hcid : ∀ k, 0 < k → k ≤ e.level - 1 → computeCubeid (parent e) k = computeCubeid e k := by
    intro k h1 h2
    rw [cubeid_eq, cubeid_eq, hp]
    exact cubeid_parent (p := e.tet) h1 (by show k < e.level; omega) hl21
  have hanc : tree.anc (parent e) e.switch.toNat = tree.anc e e.switch.toNat := by
    rw [anc_pred he (l := e.level - 1) (by omega)]
    exact anc_anc (T := tree) he (by omega) (by show e.level - 1 ≤ e.level; omega)
  have lanc : (tree.anc e e.switch.toNat).level = e.switch.toNat := anc_level he (by omega)
  have hloop : tetBoundaryLoop e f e.switch.toNat e.level e.type =
      (bey f (Simplex.computeCubeid .tet e.tet e.level) e.type &&
        tetBoundaryLoop (parent e) f e.switch.toNat (e.level - 1) (parent e).type) := by
    obtain ⟨n, hn⟩ : ∃ n, e.level = n + 1 := ⟨e.level - 1, by omega⟩
    rw [hn, tetBoundaryLoop, if_pos (by omega), ← tetBoundaryLoop_parent (e := e) f _ _ (by rw [← hn] at *; simpa using hcid)]
    rw [hn] at ptp
    simp only [Nat.add_sub_cancel, ptp, bey, cubeid_eq]
    split <;> rename_i h
    · rw [h, Bool.true_and]
    · rw [Bool.not_eq_true] at h
      rw [h, Bool.false_and]
  rw [tetBoundary, if_neg (fun h => hs h.symm), ancestor_eq he (by omega)]
  show (tetPyraFaceConnection (tree.anc e e.switch.toNat) f &&
    tetBoundaryLoop e f (tree.anc e e.switch.toNat).level e.level e.type) = _
  rw [lanc, hloop]
  rw [tetBoundary, psw, pl]
  split
  · rename_i h
    have h1 : e.level - 1 = e.switch.toNat := by omega
    have h2 : tree.anc e e.switch.toNat = parent e := by rw [anc_pred he (l := e.level - 1) (by omega), h1]
    rw [h2, h1]
    have h3 : tetBoundaryLoop (parent e) f e.switch.toNat e.switch.toNat (parent e).type = true := by
      generalize e.switch.toNat = n
      cases n with
      | zero => rfl
      | succ n => rw [tetBoundaryLoop, if_neg (by omega)]
    rw [h3, Bool.and_true, Bool.and_comm]
  · rw [ancestor_eq vp (by omega), hanc]
    show _ = (_ && (tetPyraFaceConnection (tree.anc e e.switch.toNat) f &&
      tetBoundaryLoop (parent e) f (tree.anc e e.switch.toNat).level (e.level - 1) (parent e).type))
    rw [lanc, ← Bool.and_assoc, ← Bool.and_assoc, Bool.and_comm (bey _ _ _)]

set_option synthInstance.maxHeartbeats 200000 in
set_option synthInstance.maxSize 1000 in
theorem tableD : ∀ cid < 8, ∀ t ∈ [0, 3], ∀ f < 4,
    (Simplex.nbType .tet t f ≠ 0 ∧ Simplex.nbType .tet t f ≠ 3) ∧
    (bey f cid t = true → ptype cid t = t ∧ PF cid t f = some f) ∧
    (bey f cid t = false → (PF cid t f).isSome = true → ptype cid t ≠ 0 ∧ ptype cid t ≠ 3) := by decide +kernel

/-- `t8_dpyramid_tet_boundary`. -/
theorem tetBoundary_iff {e : Elem} (he : Valid e) (ht : e.type = 0 ∨ e.type = 3) {f : Nat} (hf : f < 4)
    (hn : Al (nb e.tet f)) : tetBoundary e f = true ↔ Cl (nb e.tet f) := by
  have h6 : ¬ 6 ≤ e.type := by omega
  induction hk : e.level generalizing e with
  | zero =>
    have := he.good.tet h6
    omega
  | succ k ih =>
    have hl : 0 < e.tet.level := by show 0 < e.level; omega
    have ha := he.good.aligned h6
    have htm : e.type ∈ [0, 3] := by simpa using ht
    have hcl := Simplex.cubeid_lt (c := .tet) e.tet e.tet.level
    have vp : Valid (parent e) := tree.valid_parent e he hl
    have hnl : 0 < (nb e.tet f).level := by rw [nb_level ha hf]; exact hl
    have hslot : e.type ∈ slots e.type := mem_slots_self (by omega)
    obtain ⟨d1, d2, d3⟩ := tableD _ hcl e.type htm f hf
    obtain ⟨t', p1, p2⟩ := part_parent he hl hslot
    have p2' : Simplex.parent .tet e.tet = part (parent e) t' := p2
    have pty : ptype (Simplex.computeCubeid .tet e.tet e.tet.level) e.type = t' := congrArg (fun z : S => z.type) p2'
    have ncl : Cl (nb e.tet f) ↔ Cl (Simplex.parent .tet (nb e.tet f)) := by
      rw [cl_parent hnl, nb_type ha hf]
      exact and_iff_right d1
    obtain ⟨s1, s2, s3⟩ := parent_shape he hl
    rw [ncl]
    by_cases hs : e.switch = e.level
    · have hp6 := (s2 h6 hs).1
      have tt := (slots_lt _ (type_lt vp.good) t' p1).2.1 hp6
      obtain ⟨_, a2, a3⟩ := tableA _ hcl e.type htm f hf (by rw [pty]; exact tt)
      rw [tetBoundary, if_pos hs.symm, conn_eq]
      refine a2.trans ?_
      rw [pty] at a3 ⊢
      constructor
      · rintro (h | h)
        · rw [nb_parent_none ha hl hf hn h, p2', part_cl vp p1]; exact hp6
        · rw [(nb_parent_some ha hl hf hn h).2, p2']
          obtain ⟨t'', q1, q2⟩ := nb_inner vp.good hp6 p1
          rw [q2, part_cl vp q1]; exact hp6
      · intro hc
        rcases a3 with h | h | ⟨h1, h2⟩
        · exact Or.inl h
        · exact Or.inr h
        · obtain ⟨g, hg⟩ := Option.isSome_iff_exists.1 h1
          obtain ⟨g1, g2⟩ := nb_parent_some ha hl hf hn hg
          rw [g2] at hc
          refine absurd hc (not_cl_of_type ?_)
          rw [nb_type (Simplex.aligned_parent (c := .tet) ha hl) g1]
          rw [hg] at h2
          rw [← pty] at h2
          exact h2
    · obtain ⟨b1, b2, b3⟩ := s3 h6 hs
      have hp := parent_tet' h6 hs
      have hpt : (parent e).tet = Simplex.parent .tet e.tet := by rw [hp]
      have tp : t' = (parent e).type := by rw [← pty, hp]; rfl
      have ncp : ¬ Cl (Simplex.parent .tet e.tet) := by rw [p2', part_cl vp p1]; exact b1
      have hpa := Simplex.aligned_parent (c := .tet) ha hl
      have hnn := Simplex.aligned_parent (c := .tet) hn hnl
      rw [tetBoundary_step he h6 hs, Bool.and_eq_true]
      cases hbey : bey f (Simplex.computeCubeid .tet e.tet e.tet.level) e.type with
      | true =>
        obtain ⟨k1, k2⟩ := d2 hbey
        have k3 := (nb_parent_some ha hl hf hn k2).2
        rw [k3, ← hpt] at hnn ⊢
        have key := ih (e := parent e) vp (by rw [← tp, ← pty, k1]; exact ht) hnn b1 (by rw [hp]; show e.level - 1 = k; omega)
        exact ⟨fun h => key.1 h.2, fun h => ⟨rfl, key.2 h⟩⟩
      | false =>
        refine ⟨fun h => ?_, fun h => ?_⟩
        · exact absurd h.1 (by decide)
        · cases hPF : PF (Simplex.computeCubeid .tet e.tet e.tet.level) e.type f with
          | none =>
            rw [nb_parent_none ha hl hf hn hPF] at h
            exact absurd h ncp
          | some g =>
            obtain ⟨g1, g2⟩ := nb_parent_some ha hl hf hn hPF
            rw [g2] at h hnn
            exact absurd h (not_cl_nb hpa (d3 hbey (by rw [hPF]; rfl)) ncp g1 hnn)

end T8.Pyramid
