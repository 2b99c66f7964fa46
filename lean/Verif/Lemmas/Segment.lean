/-
Lemmas on parts of the leaves of a complete tree.
-/
import Verif.Lemmas.Tiling
import Verif.Spec.Scheme

namespace T8
namespace RTree
variable {T : RTree}

/-- The members of a family are leaves of a complete refinement. -/
theorem IsFamilyOf.segment {fam : List T.E} {p : T.E} (h : T.IsFamilyOf fam p) : T.Segment fam := by
  obtain ⟨hv, hl, rfl⟩ := h
  obtain ⟨pre, post, h1, _⟩ := uniform_block T.valid_root (desc_root hv) (L := T.level p + 1) (by omega) (by omega)
  refine ⟨pre, post, ?_⟩
  rw [show T.level p + 1 - T.level p = 1 by omega] at h1
  have h2 : T.uniform p 1 = (List.range (T.nc p)).map (T.child p) := by
    rw [uniform_succ]
    simp [uniform, List.flatMap_singleton']
    exact List.flatMap_pure_eq_map _ _
  rw [← h2, ← h1]
  exact Tiles.uniform T.valid_root (by rw [T.level_root]; omega)

/-- A part of a segment is a segment. -/
theorem Segment.part {ls : List T.E} (h : T.Segment ls) (i n : Nat) : T.Segment ((ls.drop i).take n) := by
  obtain ⟨pre, post, h⟩ := h
  refine ⟨pre ++ ls.take i, (ls.drop i).drop n ++ post, ?_⟩
  have : pre ++ ls.take i ++ (ls.drop i).take n ++ ((ls.drop i).drop n ++ post) = pre ++ ls ++ post := by
    conv_rhs => rw [← List.take_append_drop i ls, ← List.take_append_drop n (ls.drop i)]
    simp only [List.append_assoc]
  rw [this]
  exact h

end RTree

open RTree

/-- An exact family test answers right for segments. -/
theorem Scheme.Lawful.family {T : RTree} {S : Scheme T} (hS : S.Lawful) {fam : List T.E} {f0 : T.E} (h0 : fam.head? = some f0)
    (hlen : fam.length = S.numSiblings f0) (hv : ∀ x ∈ fam, T.Valid x) (hl : ∀ x ∈ fam, 0 < T.level x)
    (h : S.ExactFamilies ∨ T.Segment fam) : ∃ b, S.areFamily fam = some b ∧ (b = true ↔ ∃ p, T.IsFamilyOf fam p) := by
  rcases h with h | h
  · exact h fam f0 h0 hlen hv hl
  · obtain ⟨b, h1, h2⟩ := hS.areFamily fam f0 h0 hlen hv hl
    exact ⟨b, h1, h2 h⟩

end T8
