/-
Lemmas for C54: the neighbors of the ancestors, for triangles and tetrahedra.
-/
import Verif.Lemmas.FaceLift
import Verif.Lemmas.PyramidNeighbor
import Verif.Props.SimplexFaces

namespace T8.Simplex
open T8.RTree T8.Bits
open T8.Pyramid (axis_add axis_same)

variable {c : Cls}

/-- The neighbor, inside of the root or not. -/
abbrev nbr (p : Elem c.dim) (f : Nat) : Elem c.dim := (faceNeighbour c p f).1

/-- The cube id of the neighbor. -/
def nbrCid : Cls → Nat → Nat → Nat → Nat
  | .tri, cid, t, f => if f = 0 then cid ^^^ 2 ^ t else if f = 2 then cid ^^^ 2 ^ (1 - t) else cid
  | .tet, cid, t, f => if f = 0 then cid ^^^ 2 ^ (t / 2) else if f = 3 then cid ^^^ 2 ^ ((t + 3) % 6 / 2) else cid

abbrev parType (c : Cls) (cid t : Nat) : Nat := look (cidTypeToParenttype c) cid t

theorem nbrCid_testBit (c : Cls) : ∀ cid < 2 ^ c.dim, ∀ t < c.numTypes, ∀ f < c.numFaces, nbrCid c cid t f < 2 ^ c.dim ∧
    ∀ i : Fin c.dim, (nbrCid c cid t f).testBit i =
      if (f = 0 ∧ rank c t i = 1) ∨ (f = c.dim ∧ rank c t i = c.dim) then !cid.testBit i else cid.testBit i := by
  cases c <;> decide +kernel

set_option synthInstance.maxHeartbeats 200000 in
set_option synthInstance.maxSize 1000 in
theorem nbr_parent_table_none (c : Cls) : ∀ cid < 2 ^ c.dim, ∀ t < c.numTypes, ∀ f < c.numFaces, parentFaceOf c cid t f = none →
    parType c (nbrCid c cid t f) (nbType c t f) = parType c cid t ∧
      ∀ i : Fin c.dim, ((f = 0 ∧ rank c t i = 1) → cid.testBit i = false) ∧
        ((f = c.dim ∧ rank c t i = c.dim) → cid.testBit i = true) := by
  cases c <;> decide +kernel

theorem parentFaceOf_lt (c : Cls) : ∀ cid < 2 ^ c.dim, ∀ t < c.numTypes, ∀ f < c.numFaces, (parentFaceOf c cid t f).getD 0 < c.numFaces := by
  cases c <;> decide +kernel

/-- The parent of the neighbor is the neighbor of the parent at face `g`. -/
def NbrSome (c : Cls) (cid t f g : Nat) : Prop :=
  parType c (nbrCid c cid t f) (nbType c t f) = nbType c (parType c cid t) g ∧
    ∀ i : Fin c.dim, ((g = 0 ∧ rank c (parType c cid t) i = 1) ↔
        (f = 0 ∧ rank c t i = 1 ∧ cid.testBit i = true)) ∧
      ((g = c.dim ∧ rank c (parType c cid t) i = c.dim) ↔
        (f = c.dim ∧ rank c t i = c.dim ∧ cid.testBit i = false))

instance (cid t f g : Nat) : Decidable (NbrSome c cid t f g) := by unfold NbrSome; infer_instance

theorem nbr_parent_table_some (c : Cls) : ∀ cid < 2 ^ c.dim, ∀ t < c.numTypes, ∀ f < c.numFaces, ∀ g < c.numFaces,
    parentFaceOf c cid t f = some g → NbrSome c cid t f g := by
  cases c <;> decide +kernel

theorem size_parent' {p : Elem c.dim} (hp : Aligned c p) (hl : 0 < p.level) :
    size c (parent c p).level = 2 * size c p.level := by
  have : p.level ≤ c.maxLevel := hp.1.1
  show 2 ^ (c.maxLevel - (p.level - 1)) = 2 * 2 ^ (c.maxLevel - p.level)
  rw [show c.maxLevel - (p.level - 1) = (c.maxLevel - p.level) + 1 by omega, Nat.pow_succ, Nat.mul_comm]

/-- The coordinates of the parent of the neighbor, and the cube id of the neighbor. -/
theorem nbr_axis {p : Elem c.dim} (hp : Aligned c p) (hl : 0 < p.level) {f : Nat} (hf : f < c.numFaces) (hn : Aligned c (nbr p f))
    (i : Fin c.dim) :
    ((computeCubeid c (nbr p f) p.level).testBit i = (nbrCid c (computeCubeid c p p.level) p.type f).testBit i) ∧
    ((f = 0 ∧ rank c p.type i = 1) → ((parent c (nbr p f)).x i).toNat = ((parent c p).x i).toNat +
        if (computeCubeid c p p.level).testBit i then 2 * size c p.level else 0) ∧
    ((f = c.dim ∧ rank c p.type i = c.dim) → ((parent c p).x i).toNat = ((parent c (nbr p f)).x i).toNat +
        if (computeCubeid c p p.level).testBit i then 0 else 2 * size c p.level) ∧
    (¬ (f = 0 ∧ rank c p.type i = 1) → ¬ (f = c.dim ∧ rank c p.type i = c.dim) →
      ((parent c (nbr p f)).x i).toNat = ((parent c p).x i).toNat) := by
  obtain ⟨r1, r2, r3⟩ := neighbour_rest (e := p) hp.2 hf
  have hdim := dim_ge c
  have hnl : 0 < (nbr p f).level := by rw [r1]; exact hl
  have hcid := cubeid_lt (c := c) p p.level
  have hb := (nbrCid_testBit c _ hcid p.type hp.2 f hf).2 i
  obtain ⟨a1, a2, a3⟩ := neighbour_toNat hp hf hn i
  have ep := x_eq_parent hp hl i
  have en := x_eq_parent hn hnl i
  have dp := x_dvd (aligned_parent hp hl) i
  have dn := x_dvd (aligned_parent hn hnl) i
  rw [size_parent' hp hl] at dp
  rw [size_parent' hn hnl] at dn
  rw [r1] at en dn
  have hs := size_pos c p.level
  rw [hb]
  by_cases c1 : f = 0 ∧ rank c p.type i = 1
  · have := a1 c1.1 c1.2
    rw [en, ep] at this
    obtain ⟨k1, k2⟩ := axis_add hs dp dn this
    rw [if_pos (Or.inl c1)]
    exact ⟨k1, fun _ => k2, fun h => absurd (h.1.symm.trans c1.1) (by omega), fun h => absurd c1 h⟩
  · by_cases c2 : f = c.dim ∧ rank c p.type i = c.dim
    · have := a2 c2.1 c2.2
      rw [en, ep] at this
      obtain ⟨k1, k2⟩ := axis_add hs dn dp this.symm
      rw [if_pos (Or.inr c2)]
      refine ⟨?_, fun h => absurd h c1, fun _ => ?_, fun _ h => absurd c2 h⟩
      · rw [k1, Bool.not_not]
      · rw [k2, k1]
        cases (computeCubeid c (nbr p f) p.level).testBit i <;> rfl
    · have := a3 c1 c2
      rw [en, ep] at this
      obtain ⟨k1, k2⟩ := axis_same hs dp dn this
      rw [if_neg (fun h => h.elim c1 c2)]
      exact ⟨k1, fun h => absurd h c1, fun h => absurd h c2, fun _ _ => k2⟩

theorem nbr_cubeid {p : Elem c.dim} (hp : Aligned c p) (hl : 0 < p.level) {f : Nat} (hf : f < c.numFaces) (hn : Aligned c (nbr p f)) :
    computeCubeid c (nbr p f) p.level = nbrCid c (computeCubeid c p p.level) p.type f :=
  cid_ext (cubeid_lt _ _) (nbrCid_testBit c _ (cubeid_lt p p.level) p.type hp.2 f hf).1 fun i => (nbr_axis hp hl hf hn i).1

theorem nbr_level {p : Elem c.dim} (hp : Aligned c p) {f : Nat} (hf : f < c.numFaces) : (nbr p f).level = p.level :=
  (neighbour_rest (e := p) hp.2 hf).1

theorem nbr_type {p : Elem c.dim} (hp : Aligned c p) {f : Nat} (hf : f < c.numFaces) : (nbr p f).type = nbType c p.type f :=
  (neighbour_rest (e := p) hp.2 hf).2.1

theorem nbr_parent_type {p : Elem c.dim} (hp : Aligned c p) (hl : 0 < p.level) {f : Nat} (hf : f < c.numFaces)
    (hn : Aligned c (nbr p f)) :
    (parent c (nbr p f)).type = parType c (nbrCid c (computeCubeid c p p.level) p.type f) (nbType c p.type f) := by
  rw [← nbr_cubeid hp hl hf hn, ← nbr_type hp hf]
  show parType c (computeCubeid c (nbr p f) (nbr p f).level) _ = _
  rw [nbr_level hp hf]

theorem nbr_parent_none {p : Elem c.dim} (hp : Aligned c p) (hl : 0 < p.level) {f : Nat} (hf : f < c.numFaces) (hn : Aligned c (nbr p f))
    (h : parentFaceOf c (computeCubeid c p p.level) p.type f = none) : parent c (nbr p f) = parent c p := by
  obtain ⟨t1, t2⟩ := nbr_parent_table_none c _ (cubeid_lt p p.level) p.type hp.2 f hf h
  refine elem_ext ?_ ?_ fun i => ?_
  · show (nbr p f).level - 1 = p.level - 1
    rw [nbr_level hp hf]
  · rw [nbr_parent_type hp hl hf hn, t1]; rfl
  · obtain ⟨_, a1, a2, a3⟩ := nbr_axis hp hl hf hn i
    by_cases c1 : f = 0 ∧ rank c p.type i = 1
    · rw [a1 c1, (t2 i).1 c1]; rfl
    · by_cases c2 : f = c.dim ∧ rank c p.type i = c.dim
      · rw [a2 c2, (t2 i).2 c2]; rfl
      · exact a3 c1 c2

theorem nbr_parent_some {p : Elem c.dim} (hp : Aligned c p) (hl : 0 < p.level) {f g : Nat} (hf : f < c.numFaces)
    (hn : Aligned c (nbr p f)) (h : parentFaceOf c (computeCubeid c p p.level) p.type f = some g) :
    g < c.numFaces ∧ parent c (nbr p f) = nbr (parent c p) g := by
  have t0 : g < c.numFaces := by
    have := parentFaceOf_lt c _ (cubeid_lt p p.level) p.type hp.2 f hf
    rw [h] at this
    exact this
  obtain ⟨t1, t2⟩ := nbr_parent_table_some c _ (cubeid_lt p p.level) p.type hp.2 f hf g t0 h
  have hdim := dim_ge c
  have hpp := aligned_parent hp hl
  obtain ⟨r1, r2, r3⟩ := neighbour_rest (e := parent c p) hpp.2 (f := g) t0
  have hnl : 0 < (nbr p f).level := by rw [nbr_level hp hf]; exact hl
  have hnn := aligned_parent hn hnl
  refine ⟨t0, elem_ext ?_ ?_ fun i => ?_⟩
  · rw [r1]
    show (nbr p f).level - 1 = p.level - 1
    rw [nbr_level hp hf]
  · rw [nbr_parent_type hp hl hf hn, t1, r2]; rfl
  · obtain ⟨_, a1, a2, a3⟩ := nbr_axis hp hl hf hn i
    obtain ⟨s1, s2⟩ := t2 i
    rw [neighbour_x hpp.2 (f := g) t0]
    have hM := pow_max_lt c
    have l1 := x_add_le hpp i
    have l2 := x_add_le hnn i
    have hsz := size_parent' hp hl
    have hsz2 := size_parent' hn hnl
    rw [nbr_level hp hf] at hsz2
    have hlen : (len c (parent c p).level).toNat = size c (parent c p).level := len_toNat _ _
    rw [hsz] at hlen l1
    rw [hsz2] at l2
    change (g = 0 ∧ rank c (parent c p).type i = 1 ↔ _) at s1
    change (g = c.dim ∧ rank c (parent c p).type i = c.dim ↔ _) at s2
    by_cases c1 : f = 0 ∧ rank c p.type i = 1
    · have a := a1 c1
      by_cases hb : (computeCubeid c p p.level).testBit i = true
      · rw [if_pos (s1.2 ⟨c1.1, c1.2, hb⟩), a, if_pos hb, BitVec.toNat_add, hlen, Nat.mod_eq_of_lt]
        rw [a, if_pos hb] at l2
        omega
      · rw [if_neg (fun h => hb (s1.1 h).2.2), if_neg (fun h => by have := (s2.1 h).1; omega), a, if_neg hb, Nat.add_zero]
    · by_cases c2 : f = c.dim ∧ rank c p.type i = c.dim
      · have a := a2 c2
        rw [if_neg (fun h => c1 ⟨(s1.1 h).1, (s1.1 h).2.1⟩)]
        by_cases hb : (computeCubeid c p p.level).testBit i = true
        · rw [if_neg (fun h => by have := (s2.1 h).2.2; rw [hb] at this; exact absurd this (by decide)), a, if_pos hb, Nat.add_zero]
        · rw [if_pos (s2.2 ⟨c2.1, c2.2, by simpa using hb⟩)]
          rw [if_neg hb] at a
          have hle : len c (parent c p).level ≤ (parent c p).x i := by
            rw [BitVec.le_def, hlen]; omega
          rw [BitVec.toNat_sub_of_le hle, hlen]
          omega
      · rw [if_neg (fun h => c1 ⟨(s1.1 h).1, (s1.1 h).2.1⟩), if_neg (fun h => c2 ⟨(s2.1 h).1, (s2.1 h).2.1⟩), a3 c1 c2]

theorem lifts (c : Cls) : LeafNeighbor.Lifts (faceScheme c) (InFace c) (faceNeighborInside c) := by
  intro e f m g he hf hl h
  have hf' : f < c.numFaces := hf
  have hl' : 0 < e.level := hl
  have ha := Valid.aligned he
  unfold faceNeighborInside at h
  by_cases hi : isInsideRoot c (faceNeighbour c e f).1 = true
  · rw [if_pos hi] at h
    have hm : nbr e f = m := congrArg Prod.fst (Option.some.inj h)
    have hv := (inside_neighbour_iff ha hf').1 hi
    have hva := hv.aligned
    have hpe := parentFaceOf_eq (c := c) hl' f
    cases hpf : faceParentFace c e f with
    | none =>
      left
      rw [hpf] at hpe
      have := nbr_parent_none ha hl' hf' hva hpe.symm
      rw [hm] at this
      exact this
    | some F =>
      right
      rw [hpf] at hpe
      obtain ⟨hF, hp⟩ := nbr_parent_some ha hl' hf' hva hpe.symm
      have hml : 0 < (nbr e f).level := by rw [nbr_level ha hf']; exact hl'
      refine ⟨F, (faceNeighbour c (parent c e) F).2, ⟨hf', hF, ((parentFace_iff he hl' hf' F).1 hpf).2⟩, ?_⟩
      have hpv := valid_parent hv hml
      have hi' : isInsideRoot c (faceNeighbour c (parent c e) F).1 = true := by
        refine (inside_neighbour_iff (aligned_parent ha hl') hF).2 ?_
        rw [show parent c (faceNeighbour c e f).1 = (faceNeighbour c (parent c e) F).1 from hp] at hpv
        exact hpv
      show (if isInsideRoot c (faceNeighbour c (parent c e) F).1 = true then some (faceNeighbour c (parent c e) F) else none) = _
      rw [if_pos hi']
      refine congrArg some (Prod.ext ?_ rfl)
      show nbr (parent c e) F = parent c m
      rw [← hp, hm]
  · rw [if_neg hi] at h; cases h

end T8.Simplex
