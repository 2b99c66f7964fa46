/-
Lemmas about the default pyramids: the face neighbor is an element of the tree.
-/
import Verif.Lemmas.PyramidNeighbor

namespace T8.Pyramid
open T8.RTree T8.Bits
open T8.Simplex (look Cls)

/-! ### Inside of the root -/

theorem rank_12 : ∀ t < 6, ((t = 1 ∨ t = 2) ↔ (Simplex.rank .tet t (0 : Fin 3) < Simplex.rank .tet t (2 : Fin 3) ∧
    Simplex.rank .tet t (1 : Fin 3) < Simplex.rank .tet t (2 : Fin 3))) ∧
    (Simplex.rank .tet t (0 : Fin 3) < Simplex.rank .tet t (2 : Fin 3) ↔ t = 0 ∨ t = 1 ∨ t = 2) ∧
    (Simplex.rank .tet t (1 : Fin 3) < Simplex.rank .tet t (2 : Fin 3) ↔ t = 1 ∨ t = 2 ∨ t = 3) := by decide +kernel

/-- The order of the axes of the ancestor of level 0. -/
theorem order_zero {p : S} (hp : Al p) (i j : Fin 3) : Simplex.Order (c := .tet) p 0 i j ↔
    (p.x j).toNat < (p.x i).toNat ∨ ((p.x i).toNat = (p.x j).toNat ∧ Simplex.rank .tet p.type i < Simplex.rank .tet p.type j) := by
  have h1 : (p.x i).toNat % 2 ^ (21 - 0) = (p.x i).toNat := Nat.mod_eq_of_lt (Simplex.x_lt (c := .tet) hp i)
  have h2 : (p.x j).toNat % 2 ^ (21 - 0) = (p.x j).toNat := Nat.mod_eq_of_lt (Simplex.x_lt (c := .tet) hp j)
  show ((p.x j).toNat % 2 ^ (21 - 0) < (p.x i).toNat % 2 ^ (21 - 0) ∨
    ((p.x i).toNat % 2 ^ (21 - 0) = (p.x j).toNat % 2 ^ (21 - 0) ∧ _)) ↔ _
  rw [h1, h2]

theorem ct_zero {p : S} (hp : Al p) :
    (Simplex.rank .tet (ct p 0) (0 : Fin 3) < Simplex.rank .tet (ct p 0) (2 : Fin 3) ↔
      (p.x 2).toNat < (p.x 0).toNat ∨ ((p.x 0).toNat = (p.x 2).toNat ∧ (p.type = 0 ∨ p.type = 1 ∨ p.type = 2))) ∧
    (Simplex.rank .tet (ct p 0) (1 : Fin 3) < Simplex.rank .tet (ct p 0) (2 : Fin 3) ↔
      (p.x 2).toNat < (p.x 1).toNat ∨ ((p.x 1).toNat = (p.x 2).toNat ∧ (p.type = 1 ∨ p.type = 2 ∨ p.type = 3))) := by
  have r := rank_12 p.type hp.2
  exact ⟨((ct_rank hp (Nat.zero_le _) 0 2).trans (order_zero hp 0 2)).trans (or_congr Iff.rfl (and_congr_right fun _ => r.2.1)),
    ((ct_rank hp (Nat.zero_le _) 1 2).trans (order_zero hp 1 2)).trans (or_congr Iff.rfl (and_congr_right fun _ => r.2.2))⟩

theorem inP_iff {p : S} (hp : Al p) : InP p ↔
    ((p.x 2).toNat < (p.x 0).toNat ∨ ((p.x 0).toNat = (p.x 2).toNat ∧ (p.type = 0 ∨ p.type = 1 ∨ p.type = 2))) ∧
    ((p.x 2).toNat < (p.x 1).toNat ∨ ((p.x 1).toNat = (p.x 2).toNat ∧ (p.type = 1 ∨ p.type = 2 ∨ p.type = 3))) := by
  obtain ⟨h1, h2⟩ := ct_zero hp
  rw [InP, (rank_12 _ (ct_lt hp 0)).1, h1, h2]

/-- The axes of a tetrahedron of the tree that is part of a pyramid: the third axis is the first or the last. -/
theorem cl_zero {p : S} (hp : Al p) (hc : Cl p) :
    ((p.x 2).toNat < (p.x 0).toNat ∨ ((p.x 0).toNat = (p.x 2).toNat ∧ (p.type = 0 ∨ p.type = 1 ∨ p.type = 2))) ↔
    ((p.x 2).toNat < (p.x 1).toNat ∨ ((p.x 1).toNat = (p.x 2).toNat ∧ (p.type = 1 ∨ p.type = 2 ∨ p.type = 3))) := by
  obtain ⟨h1, h2⟩ := ct_zero hp
  rw [← h1, ← h2]
  have h3 := rank_ends _ (ct_lt hp 0)
  have h4 := hc 0 (Nat.zero_le _)
  have h5 : ¬ (ct p 0 = 0 ∨ ct p 0 = 3) := by omega
  rw [h3] at h5
  tauto

set_option synthInstance.maxHeartbeats 200000 in
set_option synthInstance.maxSize 1000 in
theorem tie_table : ∀ t < 6, ∀ f < 4,
    (Simplex.nbType .tet t f = 4 → (f = 0 ∧ t = 0) ∨ (f = 3 ∧ t = 2) ∨ ((f ≠ 0 ∧ f ≠ 3) ∧ (t = 3 ∨ t = 5))) ∧
    (Simplex.nbType .tet t f = 5 → (f = 0 ∧ t = 3) ∨ (f = 3 ∧ t = 1) ∨ ((f ≠ 0 ∧ f ≠ 3) ∧ (t = 0 ∨ t = 4))) := by
  decide +kernel

theorem rank_values : (Simplex.rank .tet 0 (0 : Fin 3) = 1 ∧ Simplex.rank .tet 0 (2 : Fin 3) = 2) ∧
    (Simplex.rank .tet 2 (0 : Fin 3) = 2 ∧ Simplex.rank .tet 2 (2 : Fin 3) = 3) ∧
    (Simplex.rank .tet 3 (1 : Fin 3) = 1 ∧ Simplex.rank .tet 3 (2 : Fin 3) = 2) ∧
    (Simplex.rank .tet 1 (1 : Fin 3) = 2 ∧ Simplex.rank .tet 1 (2 : Fin 3) = 3) := by decide +kernel

theorem nb_toNat {p : S} (hp : Al p) {f : Nat} (hf : f < 4) (hn : Al (nb p f)) (i : Fin 3) :
    (f = 0 → Simplex.rank .tet p.type i = 1 → ((nb p f).x i).toNat = (p.x i).toNat + 2 ^ (21 - p.level)) ∧
    (f = 3 → Simplex.rank .tet p.type i = 3 → ((nb p f).x i).toNat + 2 ^ (21 - p.level) = (p.x i).toNat) ∧
    (¬ (f = 0 ∧ Simplex.rank .tet p.type i = 1) → ¬ (f = 3 ∧ Simplex.rank .tet p.type i = 3) →
      ((nb p f).x i).toNat = (p.x i).toNat) := Simplex.neighbour_toNat (c := .tet) hp hf hn i

/-- A neighbor of type 4 or 5 does not touch the plane of the root that its order of the axes excludes. -/
theorem nb_tie {p : S} (hp : Al p) (hi : InP p) {f : Nat} (hf : f < 4) (hn : Al (nb p f)) :
    ((nb p f).type = 4 → ((nb p f).x 2).toNat < ((nb p f).x 0).toNat) ∧
    ((nb p f).type = 5 → ((nb p f).x 2).toNat < ((nb p f).x 1).toNat) := by
  obtain ⟨i1, i2⟩ := (inP_iff hp).1 hi
  obtain ⟨t1, t2⟩ := tie_table p.type hp.2 f hf
  obtain ⟨⟨r1, r2⟩, ⟨r3, r4⟩, ⟨r5, r6⟩, r7, r8⟩ := rank_values
  have hs := Nat.two_pow_pos (21 - p.level)
  have n0 := nb_toNat hp hf hn 0
  have n1 := nb_toNat hp hf hn 1
  have n2 := nb_toNat hp hf hn 2
  rw [nb_type hp hf]
  constructor
  · intro h
    rcases t1 h with ⟨h1, h2⟩ | ⟨h1, h2⟩ | ⟨h1, h2⟩
    · have a := n0.1 h1 (by rw [h2]; exact r1)
      have b := n2.2.2 (by rw [h2]; rintro ⟨_, hc⟩; rw [r2] at hc; omega) (by rw [h1]; rintro ⟨hc, _⟩; exact absurd hc (by decide))
      clear n0 n1 n2 t1 t2 r1 r2 r3 r4 r5 r6 r7 r8 h hn hi hf hp
      omega
    · have a := n0.2.2 (by rw [h1]; rintro ⟨hc, _⟩; exact absurd hc (by decide))
        (by rw [h2]; rintro ⟨_, hc⟩; rw [r3] at hc; exact absurd hc (by decide))
      have b := n2.2.1 h1 (by rw [h2]; exact r4)
      clear n0 n1 n2 t1 t2 r1 r2 r3 r4 r5 r6 r7 r8 h hn hi hf hp
      omega
    · have a := n0.2.2 (fun hc => h1.1 hc.1) (fun hc => h1.2 hc.1)
      have b := n2.2.2 (fun hc => h1.1 hc.1) (fun hc => h1.2 hc.1)
      clear n0 n1 n2 t1 t2 r1 r2 r3 r4 r5 r6 r7 r8 h hn hi hf hp
      omega
  · intro h
    rcases t2 h with ⟨h1, h2⟩ | ⟨h1, h2⟩ | ⟨h1, h2⟩
    · have a := n1.1 h1 (by rw [h2]; exact r5)
      have b := n2.2.2 (by rw [h2]; rintro ⟨_, hc⟩; rw [r6] at hc; omega) (by rw [h1]; rintro ⟨hc, _⟩; exact absurd hc (by decide))
      clear n0 n1 n2 t1 t2 r1 r2 r3 r4 r5 r6 r7 r8 h hn hi hf hp
      omega
    · have a := n1.2.2 (by rw [h1]; rintro ⟨hc, _⟩; exact absurd hc (by decide))
        (by rw [h2]; rintro ⟨_, hc⟩; rw [r7] at hc; exact absurd hc (by decide))
      have b := n2.2.1 h1 (by rw [h2]; exact r8)
      clear n0 n1 n2 t1 t2 r1 r2 r3 r4 r5 r6 r7 r8 h hn hi hf hp
      omega
    · have a := n1.2.2 (fun hc => h1.1 hc.1) (fun hc => h1.2 hc.1)
      have b := n2.2.2 (fun hc => h1.1 hc.1) (fun hc => h1.2 hc.1)
      clear n0 n1 n2 t1 t2 r1 r2 r3 r4 r5 r6 r7 r8 h hn hi hf hp
      omega

/-! ### The face neighbor in terms of tetrahedra -/

/-- A tetrahedron of the element at face `f`, and the number of its face there. The square faces consist of the faces
of two tetrahedra. -/
def faceSlot (b f : Nat) : Nat × Nat :=
  if b = 6 then [(2, 2), (1, 0), (1, 2), (2, 0), (1, 3)].getD f (0, 0)
  else if b = 7 then [(4, 1), (5, 3), (5, 1), (4, 3), (5, 0)].getD f (0, 0)
  else (b, f)

/-- The number of faces as a function of the type. -/
def nf (b : Nat) : Nat := if 6 ≤ b then 5 else 4

theorem numFaces_eq (e : Elem) : numFaces e = nf e.type := by
  rw [numFaces, nf]; simp only [isPyra_iff]

/-- The tetrahedron on the other side of a face. -/
def adj (e : Elem) (f : Nat) : S := nb (part e (faceSlot e.type f).1) (faceSlot e.type f).2

/-- Type of the neighbor and number of the face seen from there; `c`: the neighbor of a tetrahedron is a pyramid. -/
def out (b f : Nat) (c : Bool) : Nat × Nat :=
  if b = 6 then [(3, 2), (3, 3), (0, 2), (0, 3), (7, 4)].getD f (0, 0)
  else if b = 7 then [(3, 1), (3, 0), (0, 1), (0, 0), (6, 4)].getD f (0, 0)
  else if b = 0 ∧ c = true then [(7, 3), (7, 2), (6, 2), (6, 3)].getD f (0, 0)
  else if b = 3 ∧ c = true then [(7, 1), (7, 0), (6, 0), (6, 1)].getD f (0, 0)
  else (Simplex.nbType .tet b f, Simplex.nbFace .tet f)

theorem faceNeighbour_eq {e : Elem} (he : Good e) {f : Nat} (hf : f < nf e.type) : faceNeighbour e f =
    (⟨(adj e f).x, e.level, (out e.type f (tetBoundary e f)).1⟩, (out e.type f (tetBoundary e f)).2) := by
  have ht := type_lt he
  obtain ⟨⟨x, l, t⟩, s⟩ := e
  replace ht : t < 8 := ht
  replace hf : f < nf t := hf
  have tb : tetBoundary ⟨⟨x, l, t⟩, s⟩ f = true ∨ tetBoundary ⟨⟨x, l, t⟩, s⟩ f = false := by
    cases tetBoundary ⟨⟨x, l, t⟩, s⟩ f <;> simp
  by_cases h6 : 6 ≤ t
  · have hf5 : f < 5 := by rw [nf, if_pos h6] at hf; exact hf
    obtain rfl | rfl : t = 6 ∨ t = 7 := by omega
    all_goals
      obtain rfl | rfl | rfl | rfl | rfl : f = 0 ∨ f = 1 ∨ f = 2 ∨ f = 3 ∨ f = 4 := by omega
      all_goals
        simp [adj, faceSlot, nb, Simplex.faceNeighbour, faceNeighbour, isPyra, out, part, look, typeFaceToNface, len_eq, Elem.type, Elem.level]
  · have hf4 : f < 4 := by rw [nf, if_neg h6] at hf; exact hf
    obtain rfl | rfl | rfl | rfl | rfl | rfl : t = 0 ∨ t = 1 ∨ t = 2 ∨ t = 3 ∨ t = 4 ∨ t = 5 := by omega
    all_goals
      obtain rfl | rfl | rfl | rfl : f = 0 ∨ f = 1 ∨ f = 2 ∨ f = 3 := by omega
      all_goals
        rcases tb with h | h
        all_goals
          rw [faceNeighbour, h]
          simp [adj, faceSlot, nb, Simplex.faceNeighbour, isPyra, out, part, len_eq, Elem.type, Elem.level,
            Simplex.nbType, Simplex.nbFace, Cls.dim]

theorem out_table : ∀ b < 8, ∀ f < nf b, ∀ c : Bool, 
    (faceSlot b f).1 ∈ slots b ∧ (faceSlot b f).2 < 4 ∧ (out b f c).1 < 8 ∧
    Simplex.nbType .tet (faceSlot b f).1 (faceSlot b f).2 ∈ slots (out b f c).1 ∧
    (out b f c).2 < nf (out b f c).1 ∧
    faceSlot (out b f c).1 (out b f c).2 =
      (Simplex.nbType .tet (faceSlot b f).1 (faceSlot b f).2, Simplex.nbFace .tet (faceSlot b f).2) := by decide +kernel

set_option synthInstance.maxHeartbeats 200000 in
set_option synthInstance.maxSize 1000 in
theorem conn_table : ∀ b < 8, ∀ f < nf b, ∀ c : Bool,
    (6 ≤ b → f = 4 → 6 ≤ (out b f c).1 ∧ (faceSlot b f).2 = quadFace (faceSlot b f).1) ∧
    (6 ≤ b → f ≠ 4 → ¬ 6 ≤ (out b f c).1 ∧ (Simplex.nbType .tet (faceSlot b f).1 (faceSlot b f).2 = 0 ∨
      Simplex.nbType .tet (faceSlot b f).1 (faceSlot b f).2 = 3)) ∧
    (b < 6 → (6 ≤ (out b f c).1 ↔ (b = 0 ∨ b = 3) ∧ c = true)) := by decide +kernel

theorem out_cl {e : Elem} (he : Valid e) {f : Nat} (hf : f < nf e.type) (hn : Al (adj e f)) :
    6 ≤ (out e.type f (tetBoundary e f)).1 ↔ Cl (adj e f) := by
  have ht := type_lt he.good
  obtain ⟨o1, o2, _⟩ := out_table _ ht f hf (tetBoundary e f)
  obtain ⟨c1, c2, c3⟩ := conn_table _ ht f hf (tetBoundary e f)
  have ha := part_aligned he.good o1
  by_cases h6 : 6 ≤ e.type
  · by_cases h4 : f = 4
    · obtain ⟨k1, k2⟩ := c1 h6 h4
      refine ⟨fun _ => ?_, fun _ => k1⟩
      unfold adj at hn ⊢
      rw [k2] at hn ⊢
      exact cl_nb (p := part e _) ha ((part_cl he o1).2 h6) hn
    · obtain ⟨k1, k2⟩ := c2 h6 h4
      refine ⟨fun h => absurd h k1, fun h => absurd h (not_cl_of_type ?_)⟩
      rw [adj, nb_type ha o2]
      exact k2
  · rw [c3 (by omega)]
    have hs : faceSlot e.type f = (e.type, f) := by
      rw [faceSlot, if_neg (by omega), if_neg (by omega)]
    have hadj : adj e f = nb e.tet f := by rw [adj, hs]; rfl
    rw [hs] at o2
    rw [hadj] at hn ⊢
    by_cases h03 : e.type = 0 ∨ e.type = 3
    · rw [← tetBoundary_iff he h03 o2 hn]
      exact and_iff_right h03
    · refine ⟨fun h => absurd h.1 h03, fun h => absurd h (not_cl_nb (he.good.aligned h6) (show e.type ≠ 0 ∧ e.type ≠ 3 by omega) ?_ o2 hn)⟩
      have := part_cl he (mem_slots_self (t := e.type) (by omega) : e.type ∈ slots e.type)
      intro hc
      exact h6 (this.1 hc)

theorem adj_level {e : Elem} (he : Good e) {f : Nat} (hf : f < nf e.type) : (adj e f).level = e.level := by
  obtain ⟨o1, o2, _⟩ := out_table _ (type_lt he) f hf false
  exact nb_level (part_aligned he o1) o2

theorem adj_type {e : Elem} (he : Good e) {f : Nat} (hf : f < nf e.type) :
    (adj e f).type = Simplex.nbType .tet (faceSlot e.type f).1 (faceSlot e.type f).2 := by
  obtain ⟨o1, o2, _⟩ := out_table _ (type_lt he) f hf false
  exact nb_type (part_aligned he o1) o2

theorem slots_cases : ∀ T < 8, ∀ t ∈ slots T, t < 6 ∧ ((t = 3 → T = 3) ∧ (t = 0 → T = 0) ∧ (t = 5 → T = 5 ∨ T = 7) ∧
    (t = 4 → T = 4 ∨ T = 7)) := by decide +kernel

theorem rootLen_toInt : rootLen.toInt = 2 ^ 21 := by decide +kernel

theorem inRange {x : BitVec 32} : (0 ≤ x.toInt ∧ x.toInt < 2 ^ 21) ↔ x.toNat < 2 ^ 21 := by
  rw [BitVec.toInt_eq_toNat_cond]
  have := x.isLt
  split <;> omega

/-- `t8_dpyramid_is_inside_root` for the face neighbor. -/
theorem inside_iff {e : Elem} (he : Valid e) {f : Nat} (hf : f < nf e.type) :
    isInsideRoot ⟨(adj e f).x, e.level, (out e.type f (tetBoundary e f)).1⟩ = true ↔ Al (adj e f) ∧ InP (adj e f) := by
  have ht := type_lt he.good
  obtain ⟨o1, o2, o3, o4, o5, o6⟩ := out_table _ ht f hf (tetBoundary e f)
  have ha := part_aligned he.good o1
  have hl := adj_level he.good hf
  have hty := adj_type he.good hf
  rw [← hty] at o4
  obtain ⟨s0, s1, s2, s3, s4⟩ := slots_cases _ o3 _ o4
  have s5 := slots_lt _ o3 _ o4
  have hT : (out e.type f (tetBoundary e f)).1 = 6 ∨ (out e.type f (tetBoundary e f)).1 = 7 ∨
      (out e.type f (tetBoundary e f)).1 < 6 := by omega
  by_cases h0 : e.level = 0
  · have := tree.root_unique e he h0
    subst this
    have hb : ∀ f < 5, ∀ c, (out 6 f c).1 ≠ 6 ∧ Simplex.nbType .tet (faceSlot 6 f).1 (faceSlot 6 f).2 ≠ 1 ∧
      Simplex.nbType .tet (faceSlot 6 f).1 (faceSlot 6 f).2 ≠ 2 := by decide +kernel
    obtain ⟨b1, b2, b3⟩ := hb f hf (tetBoundary root f)
    constructor
    · intro h
      unfold isInsideRoot at h
      rw [if_pos h0] at h
      simp only [Bool.and_eq_true, beq_iff_eq] at h
      exact absurd h.1.1.1 b1
    · rintro ⟨_, h⟩
      have h1 : ct (adj root f) 0 = (adj root f).type := by
        rw [← ct_self, hl]; rfl
      have hty' : (adj root f).type = Simplex.nbType .tet (faceSlot 6 f).1 (faceSlot 6 f).2 := hty
      rw [InP, h1, hty'] at h
      omega
  · have hd : ∀ i, 2 ^ (21 - e.level) ∣ ((adj e f).x i).toNat := fun i => by
      have := Simplex.neighbour_dvd (c := .tet) ha (f := (faceSlot e.type f).2) o2 i
      rw [nb_level ha o2] at this
      exact this
    have hal : Al (adj e f) ↔ ∀ i, ((adj e f).x i).toNat < 2 ^ 21 := by
      constructor
      · exact fun h i => Simplex.x_lt (c := .tet) h i
      · intro h
        exact ⟨⟨by show (adj e f).level ≤ 21; rw [hl]; exact he.good.cube.1, fun i => ⟨h i, by
          show 2 ^ (21 - (adj e f).level) ∣ _
          rw [hl]; exact hd i⟩⟩, s0⟩
    have hin : isInsideRoot ⟨(adj e f).x, e.level, (out e.type f (tetBoundary e f)).1⟩ = true ↔
        (∀ i, ((adj e f).x i).toNat < 2 ^ 21) ∧ ((adj e f).x 2).toNat ≤ ((adj e f).x 0).toNat ∧
        ((adj e f).x 2).toNat ≤ ((adj e f).x 1).toNat ∧
        ¬ ((((adj e f).x 0).toNat = ((adj e f).x 2).toNat ∧ ((out e.type f (tetBoundary e f)).1 = 3 ∨ (out e.type f (tetBoundary e f)).1 = 5)) ∨
          (((adj e f).x 1).toNat = ((adj e f).x 2).toNat ∧ ((out e.type f (tetBoundary e f)).1 = 0 ∨ (out e.type f (tetBoundary e f)).1 = 4))) := by
      generalize (out e.type f (tetBoundary e f)).1 = T
      generalize (adj e f).x = x
      unfold isInsideRoot
      rw [if_neg h0]
      simp only [rootLen_toInt]
      rw [show (∀ i : Fin 3, (x i).toNat < 2 ^ 21) ↔ ((x 0).toNat < 2 ^ 21 ∧ (x 1).toNat < 2 ^ 21 ∧ (x 2).toNat < 2 ^ 21) from
        ⟨fun h => ⟨h 0, h 1, h 2⟩, fun h i => by fin_cases i; exacts [h.1, h.2.1, h.2.2]⟩]
      have r0 := inRange (x := x 0)
      have r1 := inRange (x := x 1)
      have r2 := inRange (x := x 2)
      constructor
      · intro h
        split at h
        · rename_i hc
          have k0 := r0.1 (by omega)
          have k1 := r1.1 (by omega)
          have k2 := r2.1 (by omega)
          have e0 := toInt_of_lt (v := x 0) (by omega)
          have e1 := toInt_of_lt (v := x 1) (by omega)
          have e2 := toInt_of_lt (v := x 2) (by omega)
          rw [e0, e1, e2] at h hc
          refine ⟨⟨k0, k1, k2⟩, by omega, by omega, fun hcon => ?_⟩
          rw [if_pos] at h
          · exact absurd h (by decide)
          · exact hcon.imp (fun h => ⟨by omega, h.2⟩) (fun h => ⟨by omega, h.2⟩)
        · exact absurd h (by decide)
      · rintro ⟨⟨k0, k1, k2⟩, h1, h2, h3⟩
        have e0 := toInt_of_lt (v := x 0) (by omega)
        have e1 := toInt_of_lt (v := x 1) (by omega)
        have e2 := toInt_of_lt (v := x 2) (by omega)
        rw [e0, e1, e2]
        rw [if_pos (by omega), if_neg]
        intro hc
        exact h3 (hc.imp (fun h => ⟨by omega, h.2⟩) (fun h => ⟨by omega, h.2⟩))
    rw [hin, ← hal]
    refine and_congr_right fun hA => ?_
    rw [inP_iff hA]
    have hc := out_cl he hf hA
    obtain ⟨n4, n5⟩ := nb_tie ha (part_inP he o1) o2 hA
    replace n4 : (adj e f).type = 4 → ((adj e f).x 2).toNat < ((adj e f).x 0).toNat := n4
    replace n5 : (adj e f).type = 5 → ((adj e f).x 2).toNat < ((adj e f).x 1).toNat := n5
    have hcl : (out e.type f (tetBoundary e f)).1 = 7 → _ := fun h7 => cl_zero hA (hc.1 (by omega))
    have hmem : (out e.type f (tetBoundary e f)).1 = 6 → (adj e f).type = 1 ∨ (adj e f).type = 2 := by
      intro h; rw [h] at o4; simpa [slots] using o4
    have hmem7 : (out e.type f (tetBoundary e f)).1 = 7 → (adj e f).type = 4 ∨ (adj e f).type = 5 := by
      intro h; rw [h] at o4; simpa [slots] using o4
    have hsame := s5.2.2
    generalize (out e.type f (tetBoundary e f)).1 = T at *
    generalize (adj e f).type = t at *
    generalize ((adj e f).x 0).toNat = X at *
    generalize ((adj e f).x 1).toNat = Y at *
    generalize ((adj e f).x 2).toNat = Z at *
    clear hin hal hd hA hc ha o6 o5 o4 o2 o1 hf
    rcases hT with h | h | h
    · have := hmem h
      clear hcl hmem7
      omega
    · have := hmem7 h
      have := hcl h
      clear hcl hmem
      omega
    · have := hsame h
      clear hcl hmem hmem7
      omega

/-! ### The face neighbor -/

theorem slots_unique : ∀ a < 8, ∀ b < 8, (6 ≤ a ↔ 6 ≤ b) → ∀ t ∈ slots a, t ∈ slots b → a = b := by decide +kernel

theorem part_of_cube {m : Elem} {p : S} (h : m.cube = Simplex.Elem.cube p) : part m p.type = p :=
  Simplex.Elem.ext' h rfl

/-- The face neighbor, if there is one, is the element with the tetrahedron on the other side of the face. -/
theorem neighbour_spec {e : Elem} (he : Valid e) {f : Nat} (hf : f < nf e.type) :
    (¬ (Al (adj e f) ∧ InP (adj e f)) → faceNeighborInside e f = some none) ∧
    (Al (adj e f) → InP (adj e f) → ∃ m g, faceNeighborInside e f = some (some (m, g)) ∧ Valid m ∧ m.level = e.level ∧
      g < nf m.type ∧ part m (faceSlot m.type g).1 = adj e f ∧
      (faceSlot m.type g).2 = Simplex.nbFace .tet (faceSlot e.type f).2) := by
  have hin := inside_iff he hf
  have hfn := faceNeighbour_eq he.good hf
  constructor
  · intro h
    unfold faceNeighborInside
    rw [hfn]
    simp only
    rw [if_neg (fun hc => h (hin.1 hc))]
  · intro hA hI
    obtain ⟨m, m1, m2, m3⟩ := exists_elem hA hI
    have ht := type_lt he.good
    obtain ⟨o1, o2, o3, o4, o5, o6⟩ := out_table _ ht f hf (tetBoundary e f)
    have hty := adj_type he.good hf
    have hpm := part_of_cube m2
    have hcl := part_cl m1 m3
    rw [hpm] at hcl
    have hT : m.type = (out e.type f (tetBoundary e f)).1 := by
      refine slots_unique _ (type_lt m1.good) _ o3 ?_ _ m3 (by rw [hty]; exact o4)
      rw [← hcl, out_cl he hf hA]
    have hml : m.level = (adj e f).level := congrArg (fun z : Standalone.Elem 3 => z.level) m2
    have hmt : (⟨(adj e f).x, e.level, (out e.type f (tetBoundary e f)).1⟩ : S) = m.tet :=
      Simplex.Elem.ext' (by rw [show Simplex.Elem.cube m.tet = m.cube from rfl, m2, ← adj_level he.good hf]; rfl) hT.symm
    refine ⟨m, (out e.type f (tetBoundary e f)).2, ?_, m1, hml.trans (adj_level he.good hf), by rw [hT]; exact o5, ?_, ?_⟩
    · unfold faceNeighborInside
      rw [hfn]
      simp only
      rw [if_pos (hin.2 ⟨hA, hI⟩), hmt, setSwitch_eq m1]
      rfl
    · rw [hT, o6, ← hty]; exact hpm
    · rw [hT, o6]

end T8.Pyramid
