/-
The face functions of the standalone scheme satisfy the laws that the forest algorithms rely on.
-/
import Verif.Spec.Face
import Verif.Props.StandaloneFaces
import Verif.Props.StandaloneScheme

namespace T8.Standalone
open T8.RTree

/-- The face functions of the standalone scheme. -/
def Cls.faceScheme (c : Cls) : FaceScheme c.tree where
  numFaces _ := numFaces c.dim
  numFaceChildren _ _ := numFaceChildren c.dim
  childrenAtFace e f := childrenAtFace (d := c.dim) c.maxLevel e f
  childIdsAtFace _ f := childrenAtFaceIds c.dim f
  childFace _ f k := faceChildFace f k
  firstDescendantFace e f L := firstDescendantFace (d := c.dim) c.maxLevel e f L
  lastDescendantFace e f L := lastDescendantFace (d := c.dim) c.maxLevel e f L

/-- Face `g` of `x` lies in face `f` of `e`. -/
def Cls.InFace (c : Cls) (x : c.tree.E) (g : Nat) (e : c.tree.E) (f : Nat) : Prop :=
  g < numFaces c.dim ∧ f < numFaces c.dim ∧ Face (d := c.dim) c.maxLevel x g ⊆ Face (d := c.dim) c.maxLevel e f

theorem Cls.faceScheme_lawful (c : Cls) : (c.faceScheme).Lawful c.InFace where
  bounds _ _ _ _ h := ⟨h.1, h.2.1⟩
  refl _ _ _ hf := ⟨hf, hf, fun _ h => h⟩
  trans _ _ _ _ _ _ h1 h2 := ⟨h1.1, h2.2.1, fun _ h => h2.2.2 (h1.2.2 h)⟩
  unique x g g' e f he hd h1 h2 := by
    have hf' : f / 2 < c.dim := by have := h1.2.1; simp only [numFaces] at this; omega
    rw [face_number hf' (desc_box c.small' he hd) h1.2.2, face_number hf' (desc_box c.small' he hd) h2.2.2]
  between x g y e f he hdy hdx h := by
    have hf' : f / 2 < c.dim := by have := h.2.1; simp only [numFaces] at this; omega
    have hbx := desc_box c.small' he (hdy.trans hdx)
    have hby := desc_box c.small' he hdy
    have hbxy := desc_box c.small' (hdy.valid he) hdx
    have hg := face_number hf' hbx h.2.2
    subst hg
    have h3 := (touch_iff hf' hbx).1 h.2.2
    refine ⟨g, ⟨h.1, h.1, ?_⟩, ⟨h.1, h.1, ?_⟩⟩
    · rw [touch_iff hf' hby]
      have b1 := hby ⟨g / 2, hf'⟩
      have b2 := hbxy ⟨g / 2, hf'⟩
      have hf2 : g % 2 = 0 ∨ g % 2 = 1 := by omega
      rcases hf2 with a | a <;> rw [a] at h3 ⊢ <;> omega
    · rw [touch_iff hf' hbxy]
      have b1 := hby ⟨g / 2, hf'⟩
      have b2 := hbxy ⟨g / 2, hf'⟩
      have hf2 : g % 2 = 0 ∨ g % 2 = 1 := by omega
      rcases hf2 with a | a <;> rw [a] at h3 ⊢ <;> omega
  childIds_sorted e f he hl hf := (C13_standalone_children c e he hl f hf).1
  childIds_length e f he hl hf := (C13_standalone_children c e he hl f hf).2.1
  childIds_mem e f he hl hf i := by
    have := (C13_standalone_children c e he hl f hf).2.2.1 i
    refine this.trans (and_congr_right fun _ => exists_congr fun g => ?_)
    constructor
    · rintro ⟨h1, h2⟩; exact ⟨h1, hf, h2⟩
    · rintro ⟨h1, _, h2⟩; exact ⟨h1, h2⟩
  children e f he hl hf := (C13_standalone_children c e he hl f hf).2.2.2
  childFace e f k i he hl hf hk := by
    have h4 := (C13_standalone_children c e he hl f hf).2.2.2
    have hx : (childrenAtFace (d := c.dim) c.maxLevel e f)[k]? = some (child (d := c.dim) c.maxLevel e i) := by
      rw [h4, List.getElem?_map]
      have : (childrenAtFaceIds c.dim f)[k]? = some i := hk
      rw [this]
      rfl
    exact ⟨hf, hf, (C13_standalone_child_face c e he hl f hf k _ hx f hf).2 rfl⟩
  firstDescendantFace e f L he hf hL hLM := by
    obtain ⟨h1, h2⟩ := C14_standalone c e he f hf L hL hLM
    obtain ⟨k1, k2, k3⟩ := h1 _ (Or.inl rfl)
    refine ⟨k1, k2, ⟨f, hf, hf, k3⟩, ?_⟩
    intro x g hd hxL hin
    have hle := (h2 x g hd hxL hin.1 hin.2.2).1
    have hvx := hd.valid he
    have hvF := k1.valid he
    have e1 : (linearId (d := c.dim) c.maxLevel x L).toNat = lid (T := c.tree) x L := by
      have hxL' : Elem.level (d := c.dim) x = L := hxL
      rw [linearId_eq c.small' c.bits hvx hLM, if_neg (by omega)]
    have e2 : (linearId (d := c.dim) c.maxLevel (firstDescendantFace (d := c.dim) c.maxLevel e f L) L).toNat =
        lid (T := c.tree) (firstDescendantFace (d := c.dim) c.maxLevel e f L) L := by
      rw [linearId_eq c.small' c.bits hvF hLM, if_neg (by omega)]
    rw [e1, e2] at hle
    rcases Nat.lt_or_eq_of_le hle with hlt | heq
    · right
      show c.tree.Before (firstDescendantFace (d := c.dim) c.maxLevel e f L) x
      rw [before_iff (T := c.tree) hvF hvx (L := L) (le_of_eq k2) (le_of_eq hxL) hLM]
      rw [count_self' (T := c.tree) k2]
      exact hlt
    · left
      exact (lid_inj (T := c.tree) hvF hvx (k2.trans hxL.symm) (L := L) (le_of_eq k2) hLM heq).symm
  lastDescendantFace e f L he hf hL hLM := by
    obtain ⟨h1, h2⟩ := C14_standalone c e he f hf L hL hLM
    obtain ⟨k1, k2, k3⟩ := h1 _ (Or.inr rfl)
    refine ⟨k1, k2, ⟨f, hf, hf, k3⟩, ?_⟩
    intro x g hd hxL hin
    have hle := (h2 x g hd hxL hin.1 hin.2.2).2
    have hvx := hd.valid he
    have hvF := k1.valid he
    have e1 : (linearId (d := c.dim) c.maxLevel x L).toNat = lid (T := c.tree) x L := by
      have hxL' : Elem.level (d := c.dim) x = L := hxL
      rw [linearId_eq c.small' c.bits hvx hLM, if_neg (by omega)]
    have e2 : (linearId (d := c.dim) c.maxLevel (lastDescendantFace (d := c.dim) c.maxLevel e f L) L).toNat =
        lid (T := c.tree) (lastDescendantFace (d := c.dim) c.maxLevel e f L) L := by
      rw [linearId_eq c.small' c.bits hvF hLM, if_neg (by omega)]
    rw [e1, e2] at hle
    rcases Nat.lt_or_eq_of_le hle with hlt | heq
    · right
      show c.tree.Before x (lastDescendantFace (d := c.dim) c.maxLevel e f L)
      rw [before_iff (T := c.tree) hvx hvF (L := L) (le_of_eq hxL) (le_of_eq k2) hLM]
      rw [count_self' (T := c.tree) hxL]
      exact hlt
    · left
      exact lid_inj (T := c.tree) hvx hvF (hxL.trans k2.symm) (L := L) (le_of_eq hxL) hLM heq

end T8.Standalone
