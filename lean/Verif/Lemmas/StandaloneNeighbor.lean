/-
The face neighbors of hypercubes: the neighbor relation is mutual, the neighbor is unique, and it exists exactly if the face is not
in the boundary of the root.
-/
import Verif.Lemmas.Standalone
import Verif.Lemmas.StandaloneFaces2

namespace T8.Standalone
open RTree

variable {d M : Nat}

theorem small_of (h : 0 < d → M < 31) : 0 < d → M < 32 := fun hd => by have := h hd; omega

/-- If the neighbor across face `f` is inside of the tree, it is an element of the same level with the
same face, and the neighbor relation is mutual. -/
theorem neighbor_mutual (h : 0 < d → M < 31) (e : Elem d) (he : Valid M e) (f : Nat)
    (hf : f < numFaces d) (n : Elem d) (g : Nat) (hn : faceNeighborInside M e f = some (n, g)) :
    Valid M n ∧ n.level = e.level ∧ n ≠ e ∧ g < numFaces d ∧
    Face M n g = Face M e f ∧
    faceNeighborInside M n g = some (e, f) := by
  have hf' : f / 2 < d := by simp only [numFaces] at hf; omega
  rw [faceNeighborInside] at hn
  split at hn
  · rename_i hin
    simp only [Option.some.injEq, Prod.mk.injEq] at hn
    obtain ⟨rfl, rfl⟩ := hn
    rcases faceNeighbor_spec h he hf' with ⟨_, h2⟩ | ⟨h1, h2, h3, h4, h5⟩
    · rw [h2] at hin; cases hin
    · have hs := side_pos (M := M) e
      have hsn : side M (faceNeighbor M e f) = side M e := rfl
      have h4' := h4 ⟨f / 2, hf'⟩ rfl
      have hx1 := xor_one_div f
      have hx2 := xor_one_mod f
      refine ⟨h3, rfl, fun heq => ?_, ?_, ?_, ?_⟩
      · rw [heq] at h4'
        split at h4' <;> omega
      · simp only [numFaces]; omega
      · rw [face_eq_iff hx1 (by omega)]
        refine ⟨fun i hi => ?_, fun i hi => ?_⟩
        · rw [h5 i (by omega), hsn]; exact ⟨rfl, rfl⟩
        · have h4' := h4 i (by omega)
          rw [hx2, hsn]
          split at h4'
          · rename_i ho; rw [ho]; omega
          · have ho : f % 2 = 0 := by omega
            rw [ho]; omega
      · rw [faceNeighborInside, faceNeighbor_back, xor_one_xor, if_pos]
        -- `e` itself is inside of the root
        rw [isInsideRoot, List.all_eq_true]
        intro i _
        have : ancestor M e 0 = root d := by
          rw [ancestor_eq_anc (small_of h) he (by omega)]
          exact anc_zero (T := treeOf d M (small_of h)) he
        rw [this]; rfl
  · cases hn

/-- There is a neighbor inside of the tree exactly if the face is not part of the face of the root. -/
theorem neighbor_inside (h : 0 < d → M < 31) (e : Elem d) (he : Valid M e) (f : Nat)
    (hf : f < numFaces d) :
    faceNeighborInside M e f = none ↔ Face M e f ⊆ Face M (root d) f := by
  have hf' : f / 2 < d := by simp only [numFaces] at hf; omega
  rw [← isRootBoundary_iff (small_of h) he hf', faceNeighborInside]
  rcases faceNeighbor_spec h he hf' with ⟨h1, h2⟩ | ⟨h1, h2, _⟩
  · simp [h1, h2]
  · simp [h1, h2]

/-- The neighbor is the only other element of the level that contains the face. -/
theorem neighbor_unique (h : 0 < d → M < 31) (e x : Elem d) (he : Valid M e) (hx : Valid M x)
    (f : Nat) (hf : f < numFaces d) (hl : x.level = e.level) (hne : x ≠ e)
    (hsub : Face M e f ⊆ Box M x) :
    faceNeighborInside M e f = some (x, f ^^^ 1) := by
  have hf' : f / 2 < d := by simp only [numFaces] at hf; omega
  have hs : side M x = side M e := by simp only [side, hl]
  have hsp := side_pos (M := M) e
  have hlo := hsub (face_nonempty_lo (M := M) (e := e) f)
  have hhi := hsub (face_nonempty_hi (M := M) (e := e) f)
  have hother : ∀ i : Fin d, i.val ≠ f / 2 → x.coords i = e.coords i := by
    intro i hi
    have h1 := hlo i
    have h2 := hhi i
    simp only [hi, if_false] at h1 h2
    apply BitVec.eq_of_toNat_eq
    omega
  let i0 : Fin d := ⟨f / 2, hf'⟩
  have h0 := hlo i0
  simp only [i0, if_true] at h0
  have d1 := (hx.2 i0).2
  have d2 := (he.2 i0).2
  rw [hl] at d1
  -- the two multiples of the side length around the face
  have hne0 : (x.coords i0).toNat ≠ (e.coords i0).toNat := by
    intro heq
    apply hne
    refine Elem.ext' (fun i => ?_) hl
    by_cases hi : i.val = f / 2
    · rw [show i = i0 from Fin.ext hi]; exact BitVec.eq_of_toNat_eq heq
    · exact hother i hi
  have hxc : if f % 2 = 1 then (x.coords i0).toNat = (e.coords i0).toNat + side M e
      else (x.coords i0).toNat + side M e = (e.coords i0).toNat := by
    obtain ⟨p, hp⟩ := d1
    obtain ⟨q, hq⟩ := d2
    have hside : side M e = 2 ^ (M - e.level) := rfl
    rw [← hside] at hp hq
    have key : ∀ s p q : Nat, 0 < s → s * p ≠ s * q → s * p < s * q + s → s * q < s * p + s → False := by
      intro s p q hs h1 h2 h3
      have : p < q + 1 := Nat.lt_of_mul_lt_mul_left (a := s) (by rw [Nat.mul_succ]; exact h2)
      have : q < p + 1 := Nat.lt_of_mul_lt_mul_left (a := s) (by rw [Nat.mul_succ]; exact h3)
      exact h1 (by rw [show p = q by omega])
    split
    · rename_i ho
      rw [ho, hs] at h0
      by_contra hcon
      have h0' : (x.coords i0).toNat ≤ (e.coords i0).toNat + side M e ∧
        (e.coords i0).toNat + side M e ≤ (x.coords i0).toNat + side M e := by
        simpa using h0
      apply key (side M e) p q hsp (by omega) (by omega)
      rw [← hp, ← hq]
      omega
    · have ho : f % 2 = 0 := by omega
      rw [ho, hs] at h0
      have h0' : (x.coords i0).toNat ≤ (e.coords i0).toNat ∧
        (e.coords i0).toNat ≤ (x.coords i0).toNat + side M e := by
        simpa using h0
      by_contra hcon
      apply key (side M e) p q hsp (by omega) (by omega)
      rw [← hp, ← hq]
      omega
  have hbnd := coord_add_side_le hx i0
  rw [hs] at hbnd
  rcases faceNeighbor_spec h he hf' with ⟨h1, h2⟩ | ⟨h1, h2, h3, h4, h5⟩
  · exfalso
    rw [isRootBoundary_iff (small_of h) he hf', touch_iff hf'] at h1
    · have hroot : ((root d).coords ⟨f / 2, hf'⟩).toNat = 0 := rfl
      have hsr : side M (root d) = 2 ^ M := rfl
      rw [hroot, hsr] at h1
      simp only [i0] at hxc hbnd
      split at hxc
      · rename_i ho; rw [ho] at h1; omega
      · have ho : f % 2 = 0 := by omega
        rw [ho] at h1; omega
    · intro i
      have := coord_add_side_le he i
      have hroot : ((root d).coords i).toNat = 0 := rfl
      have hsr : side M (root d) = 2 ^ M := rfl
      rw [hroot, hsr]; omega
  · rw [faceNeighborInside, if_pos h2]
    congr 2
    refine Elem.ext' (fun i => ?_) hl.symm
    by_cases hi : i.val = f / 2
    · have h4' := h4 i hi
      rw [show i = i0 from Fin.ext hi] at h4' ⊢
      apply BitVec.eq_of_toNat_eq
      split at h4' <;> rename_i ho <;> simp only [ho, if_true, if_false] at hxc <;> omega
    · rw [h5 i hi, hother i hi]

end T8.Standalone
