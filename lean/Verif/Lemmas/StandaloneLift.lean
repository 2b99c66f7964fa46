/-
Lemmas for C54: the neighbor of a cube inside of the tree is a sibling, or the parents are neighbors across the face with the same
number.
-/
import Verif.Lemmas.StandaloneNeighbor

namespace T8.Standalone

variable {d M : Nat}

/-- The lower corner of the parent is at most one side away, and a multiple of twice the side. -/
theorem parent_toNat (h : 0 < d → M < 32) {e : Elem d} (he : Valid M e) (hl : 0 < e.level) (i : Fin d) :
    ((e.coords i).toNat = ((parent M e).coords i).toNat ∨
      (e.coords i).toNat = ((parent M e).coords i).toNat + side M e) ∧
    2 * side M e ∣ ((parent M e).coords i).toNat ∧ side M (parent M e) = 2 * side M e := by
  have hp : Valid M (parent M e) := (treeOf d M h).valid_parent e he hl
  have hc : child M (parent M e) ((treeOf d M h).childId e) = e := (treeOf d M h).child_parent e he hl
  have hlp : (parent M e).level + 1 = e.level := (treeOf d M h).level_parent e he hl
  have hle := he.1
  have h1 := child_toNat h hp (by omega) ((treeOf d M h).childId e) i
  have h2 := side_child (M := M) (e := parent M e) (by omega) ((treeOf d M h).childId e)
  rw [hc] at h1 h2
  refine ⟨?_, ?_, h2⟩
  · split at h1
    · exact Or.inr h1
    · exact Or.inl h1
  · rw [← h2]; exact (hp.2 i).2

theorem multiple_unique {t a b x : Nat} (ha : t ∣ a) (hb : t ∣ b) (h1 : a ≤ x) (h2 : x < a + t) (h3 : b ≤ x) (h4 : x < b + t) :
    a = b := by
  obtain ⟨u, rfl⟩ := ha
  obtain ⟨v, rfl⟩ := hb
  have : u < v + 1 := Nat.lt_of_mul_lt_mul_left (a := t) (by rw [Nat.mul_succ]; omega)
  have : v < u + 1 := Nat.lt_of_mul_lt_mul_left (a := t) (by rw [Nat.mul_succ]; omega)
  rw [show u = v by omega]

/-- The neighbor is a sibling, or the parents are neighbors across the face with the same number. -/
theorem neighbor_lift (h : 0 < d → M < 31) {e m : Elem d} (he : Valid M e) {f g : Nat} (hf : f < numFaces d) (hl : 0 < e.level)
    (hn : faceNeighborInside M e f = some (m, g)) :
    parent M m = parent M e ∨
      (Face M e f ⊆ Face M (parent M e) f ∧ faceNeighborInside M (parent M e) f = some (parent M m, f ^^^ 1)) := by
  have h' := small_of h
  have hf' : f / 2 < d := by simp only [numFaces] at hf; omega
  have hm : m = faceNeighbor M e f := by
    rw [faceNeighborInside] at hn
    split at hn
    · simp only [Option.some.injEq, Prod.mk.injEq] at hn
      exact hn.1.symm
    · cases hn
  have hml : m.level = e.level := by rw [hm]; rfl
  rcases faceNeighbor_spec h he hf' with ⟨_, h2⟩ | ⟨_, _, hv, hax, hoth⟩
  · rw [faceNeighborInside, h2] at hn; cases hn
  rw [← hm] at hv hax hoth
  have hs : side M m = side M e := by simp only [side, hml]
  have hsp := side_pos (M := M) e
  have pe := parent_toNat h' he hl
  have pm := parent_toNat h' hv (by omega)
  rw [hs] at pm
  have hpe : Valid M (parent M e) := (treeOf d M h').valid_parent e he hl
  have hpm : Valid M (parent M m) := (treeOf d M h').valid_parent m hv (by show 0 < m.level; omega)
  have hpl : (parent M m).level = (parent M e).level := by
    have h1 : (parent M m).level + 1 = m.level := (treeOf d M h').level_parent m hv (by show 0 < m.level; omega)
    have h2 : (parent M e).level + 1 = e.level := (treeOf d M h').level_parent e he hl
    omega
  let i0 : Fin d := ⟨f / 2, hf'⟩
  have hother : ∀ i : Fin d, i.val ≠ f / 2 → ((parent M m).coords i).toNat = ((parent M e).coords i).toNat := by
    intro i hi
    obtain ⟨a1, a2, _⟩ := pe i
    obtain ⟨b1, b2, _⟩ := pm i
    rw [hoth i hi] at b1
    exact multiple_unique b2 a2 (by omega) (x := (e.coords i).toNat) (by omega) (by omega) (by omega)
  have hps := (pe i0).2.2
  have hpms := (pm i0).2.2
  by_cases heq : ((parent M m).coords i0).toNat = ((parent M e).coords i0).toNat
  · left
    refine Elem.ext' (fun i => ?_) hpl
    apply BitVec.eq_of_toNat_eq
    by_cases hi : i.val = f / 2
    · rw [show i = i0 from Fin.ext hi]; exact heq
    · exact hother i hi
  · right
    obtain ⟨a1, a2, _⟩ := pe i0
    obtain ⟨b1, b2, _⟩ := pm i0
    have hx := hax i0 rfl
    have hkey : if f % 2 = 1 then (e.coords i0).toNat = ((parent M e).coords i0).toNat + side M e ∧
          ((parent M m).coords i0).toNat = ((parent M e).coords i0).toNat + 2 * side M e
        else (e.coords i0).toNat = ((parent M e).coords i0).toNat ∧
          ((parent M m).coords i0).toNat + 2 * side M e = ((parent M e).coords i0).toNat := by
      split
      · rename_i ho
        rw [if_pos ho] at hx
        rcases a1 with a1 | a1
        · exact absurd (multiple_unique (x := (m.coords i0).toNat) b2 a2 (by omega) (by omega) (by omega) (by omega)) heq
        · refine ⟨a1, ?_⟩
          exact multiple_unique (x := (m.coords i0).toNat) b2 (Nat.dvd_add a2 (Nat.dvd_refl _)) (by omega) (by omega) (by omega) (by omega)
      · rename_i ho
        rw [if_neg ho] at hx
        rcases a1 with a1 | a1
        · refine ⟨a1, ?_⟩
          have hge : 2 * side M e ≤ ((parent M e).coords i0).toNat := Nat.le_of_dvd (by omega) a2
          have := multiple_unique (x := (m.coords i0).toNat) b2 (Nat.dvd_sub a2 (Nat.dvd_refl _)) (by omega) (by omega) (by omega)
            (by omega)
          omega
        · exact absurd (multiple_unique (x := (m.coords i0).toNat) b2 a2 (by omega) (by omega) (by omega) (by omega)) heq
    constructor
    · rw [face_subset_iff rfl hf']
      refine ⟨fun i hi => ?_, fun i hi => ?_⟩
      · have := (pe i).1
        rw [hps]; omega
      · rw [show i = i0 from Fin.ext hi, hps]
        split at hkey
        · rename_i ho; rw [ho]; omega
        · rename_i ho; rw [show f % 2 = 0 by omega]; omega
    · refine neighbor_unique h (parent M e) (parent M m) hpe hpm f hf hpl (fun hc => heq (by rw [hc])) ?_
      rintro p ⟨hp1, hp2⟩ i
      rw [hpms]
      have h1 := hp1 i
      rw [hps] at h1
      by_cases hi : i.val = f / 2
      · have h2 := hp2 i hi
        rw [hps] at h2
        have hii : i = i0 := Fin.ext hi
        subst hii
        split at hkey
        · rename_i ho; rw [ho] at h2; omega
        · rename_i ho; rw [show f % 2 = 0 by omega] at h2; omega
      · rw [hother i hi]; exact h1

end T8.Standalone
