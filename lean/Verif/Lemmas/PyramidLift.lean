/-
Lemmas for C54: the neighbors of the ancestors, for the elements in the refinement of a pyramid.
-/
import Verif.Lemmas.FaceLift
import Verif.Props.PyramidFaces

namespace T8.Pyramid
open T8.RTree T8.Bits
open T8.Simplex (look Cls)

/-- Face `g` of the part `t` is a part of face `F` of an element of type `b`. -/
def OnFace (b F t g : Nat) : Prop := faceSlot b F = (t, g) ∨ (6 ≤ b ∧ F = 4 ∧ t ∈ slots b ∧ g = quadFace t)

instance (b F t g : Nat) : Decidable (OnFace b F t g) := by unfold OnFace; infer_instance

/-- What the face of the parent says about the face of the parent of the part. -/
def LiftRow (b i f : Nat) : Prop :=
  match ppf b i f with
  | none => PF (look parenttypeIlocToCid b i) (faceSlot (ctype b i) f).1 (faceSlot (ctype b i) f).2 = none ∨
      (6 ≤ b ∧ PF (look parenttypeIlocToCid b i) (faceSlot (ctype b i) f).1 (faceSlot (ctype b i) f).2 =
        some (innerFace (ptype (look parenttypeIlocToCid b i) (faceSlot (ctype b i) f).1)))
  | some F => F < nf b ∧ ∃ g < 4, PF (look parenttypeIlocToCid b i) (faceSlot (ctype b i) f).1 (faceSlot (ctype b i) f).2 = some g ∧
      OnFace b F (ptype (look parenttypeIlocToCid b i) (faceSlot (ctype b i) f).1) g

instance (b i f : Nat) : Decidable (LiftRow b i f) := by unfold LiftRow; split <;> infer_instance

set_option synthInstance.maxHeartbeats 200000 in
set_option synthInstance.maxSize 1000 in
theorem lift_table : ∀ b < 8, ∀ i < nch b, ∀ f < nf (ctype b i), LiftRow b i f := by decide +kernel

theorem eq_of_part {x y : Elem} (hx : Valid x) (hy : Valid y) {s t : Nat} (hs : s ∈ slots x.type) (ht : t ∈ slots y.type)
    (h : part x s = part y t) : x = y := by
  have h1 : s = t := congrArg (fun z : S => z.type) h
  subst h1
  have hc := congrArg (fun z : S => Simplex.Elem.cube z) h
  exact eq_of_slots hx hy hc hs ht

theorem quad_table : ∀ b ∈ [6, 7], (faceSlot b 4).2 = quadFace (faceSlot b 4).1 ∧ (faceSlot b 4).1 ∈ slots b ∧
    ∀ t ∈ slots b, Simplex.nbType .tet t (quadFace t) ∈ slots (13 - b) := by decide +kernel

/-- The parts of a pyramid have their neighbors at the square face in the same cube. -/
theorem quad_cube (e : Elem) (h : e.type = 6 ∨ e.type = 7) {t : Nat} (ht : t ∈ slots e.type) :
    Simplex.Elem.cube (nb (part e t) (quadFace t)) = Simplex.Elem.cube (adj e 4) := by
  rcases h with h | h
  · have h1 : t ∈ [1, 2] := by rw [h] at ht; exact ht
    rw [adj, h]
    have : t = 1 ∨ t = 2 := by simpa using h1
    rcases this with rfl | rfl <;> simp [nb, part, Simplex.faceNeighbour, faceSlot, quadFace, Simplex.Elem.cube]
  · have h1 : t ∈ [4, 5] := by rw [h] at ht; exact ht
    rw [adj, h]
    have : t = 4 ∨ t = 5 := by simpa using h1
    rcases this with rfl | rfl <;> simp [nb, part, Simplex.faceNeighbour, faceSlot, quadFace, Simplex.Elem.cube]

theorem slots_pyra : ∀ a < 8, ∀ t ∈ slots a, ∀ b ∈ [6, 7], t ∈ slots (13 - b) → 6 ≤ a → a = 13 - b := by decide +kernel

/-- The element at the other side of a face: given by one of its parts. -/
theorem neighbour_of_part {e : Elem} (he : Valid e) {f t g : Nat} (hf : f < nf e.type) (ht : t ∈ slots e.type) (hg : g < 4)
    (hon : OnFace e.type f t g) {m : Elem} (hm : Valid m) {s : Nat} (hs : s ∈ slots m.type) (h : nb (part e t) g = part m s) :
    ∃ k, faceNeighborInside e f = some (some (m, k)) := by
  have haq : Al (nb (part e t) g) := by rw [h]; exact part_aligned hm.good hs
  -- the neighbor of the part that the code looks at is a part of `m`, too
  have key : ∃ s' ∈ slots m.type, adj e f = part m s' := by
    rcases hon with hon | ⟨h6, rfl, _, rfl⟩
    · refine ⟨s, hs, ?_⟩
      rw [adj, hon]; exact h
    · have hb := (he.good.pyra h6).1
      obtain ⟨q1, q2, q3⟩ := quad_table e.type (by simpa using hb)
      have hcl : Cl (nb (part e t) (quadFace t)) := by
        have := cl_nb (part_aligned he.good ht) ((part_cl he ht).2 h6) (by exact haq)
        exact this
      rw [h, part_cl hm hs] at hcl
      have hst : s = Simplex.nbType .tet t (quadFace t) := by
        have h1 := nb_type (part_aligned he.good ht) (quadFace_lt t)
        rw [h] at h1
        exact h1
      have hmt := slots_pyra _ (type_lt hm.good) s hs e.type (by simpa using hb) (by rw [hst]; exact q3 t ht) hcl
      have hc := quad_cube e hb ht
      rw [h] at hc
      refine ⟨(adj e 4).type, ?_, Simplex.Elem.ext' hc.symm rfl⟩
      rw [adj_type he.good hf, hmt, q1]
      exact q3 _ q2
  obtain ⟨s', hs', hadj⟩ := key
  obtain ⟨m', k, h1, h2, h3, h4, h5, h6⟩ := (neighbour_spec he hf).2 (by rw [hadj]; exact part_aligned hm.good hs')
    (by rw [hadj]; exact part_inP hm hs')
  obtain ⟨o1, _⟩ := out_table _ (type_lt h2.good) k h4 false
  rw [hadj] at h5
  rw [eq_of_part h2 hm o1 hs' h5] at h1
  exact ⟨k, h1⟩

/-- The neighbor inside of the root, if there is one. -/
def inside (e : Elem) (f : Nat) : Option (Elem × Nat) := (faceNeighborInside e f).join

theorem inside_eq {e : Elem} {f : Nat} {r : Elem × Nat} : inside e f = some r ↔ faceNeighborInside e f = some (some r) := by
  rw [inside]
  cases faceNeighborInside e f with
  | none => simp
  | some x => cases x <;> simp

/-- The neighbor is a sibling if the face is not part of a face of the parent. Otherwise the parents are neighbors at this face. -/
theorem parent_neighbor {e m : Elem} {f g : Nat} (he : Valid e) (hf' : f < nf e.type) (hl' : 0 < e.level) (h : inside e f = some (m, g)) :
    (faceParentFace e f = none → parent m = parent e) ∧
    ∀ F, faceParentFace e f = some F → F < nf (parent e).type ∧ ∃ j, inside (parent e) F = some (parent m, j) := by
  rw [inside_eq] at h
  -- the parts on both sides of the face
  have hadj : Al (adj e f) ∧ InP (adj e f) := by
    by_contra hc
    have := (neighbour_spec he hf').1 hc
    rw [h] at this
    cases this
  obtain ⟨m', g', n1, n2, n3, n4, n5, n6⟩ := (neighbour_spec he hf').2 hadj.1 hadj.2
  rw [h] at n1
  obtain ⟨rfl, rfl⟩ : m = m' ∧ g = g' := by
    have := Option.some.inj (Option.some.inj n1)
    exact ⟨congrArg Prod.fst this, congrArg Prod.snd this⟩
  obtain ⟨o1, o2, _⟩ := out_table _ (type_lt he.good) f hf' false
  obtain ⟨o1', _⟩ := out_table _ (type_lt n2.good) g n4 false
  have hml : 0 < m.level := by rw [n3]; exact hl'
  obtain ⟨t', p1, p2⟩ := part_parent he hl' o1
  obtain ⟨s', q1, q2⟩ := part_parent n2 hml o1'
  have vp : Valid (parent e) := tree.valid_parent e he hl'
  have vm : Valid (parent m) := tree.valid_parent m n2 hml
  have hap := part_aligned he.good o1
  rw [n5] at q2
  have hanb : Al (nb (part e (faceSlot e.type f).1) (faceSlot e.type f).2) := hadj.1
  -- the row of the table
  have hrow : match faceParentFace e f with
      | none => PF (Simplex.computeCubeid .tet (part e (faceSlot e.type f).1) e.level) (faceSlot e.type f).1 (faceSlot e.type f).2 = none ∨
          (6 ≤ (parent e).type ∧ PF (Simplex.computeCubeid .tet (part e (faceSlot e.type f).1) e.level) (faceSlot e.type f).1
            (faceSlot e.type f).2 = some (innerFace t'))
      | some F => F < nf (parent e).type ∧ ∃ k < 4, PF (Simplex.computeCubeid .tet (part e (faceSlot e.type f).1) e.level)
          (faceSlot e.type f).1 (faceSlot e.type f).2 = some k ∧ OnFace (parent e).type F t' k := by
    have pty : ptype (Simplex.computeCubeid .tet (part e (faceSlot e.type f).1) e.level) (faceSlot e.type f).1 = t' :=
      congrArg (fun z : S => z.type) p2
    rw [← pty]
    clear pty p2 p1 n5 n6 h n1 hadj q2 hanb hap o1 o2
    obtain ⟨p, i, r1, r2, r3, rfl⟩ := valid_cases he hl'
    have hrow := lift_table _ (type_lt r1.good) i (by rw [← nch_eq]; exact r3) f (by
      rw [(child_cube r1.good r2 r3).2.1] at hf'; exact hf')
    have hcid : Simplex.computeCubeid .tet (part (child p i) (faceSlot (child p i).type f).1) (child p i).level =
        look parenttypeIlocToCid p.type i := by
      have h1 : Simplex.computeCubeid .tet (part (child p i) (faceSlot (child p i).type f).1) (child p i).level =
          computeCubeid (child p i) (child p i).level := by
        rw [cubeid_eq, Simplex.cubeid_eq, Simplex.cubeid_eq]; rfl
      rw [h1, child_level]
      exact cubeid_child r1.good r2 r3
    rw [faceParentFace_child r1.good r2 r3, parent_child r1.good r2 r3, hcid, (child_cube r1.good r2 r3).2.1]
    exact hrow
  constructor
  · intro hpf
    rw [hpf] at hrow
    rcases hrow with hr | ⟨h6, hr⟩
    · have := nb_parent_none hap hl' o2 hanb hr
      refine eq_of_part vm vp q1 p1 ?_
      rw [← q2, ← p2]; exact this
    · have := (nb_parent_some hap hl' o2 hanb hr).2
      rw [p2] at this
      obtain ⟨t'', u1, u2⟩ := nb_inner vp.good h6 p1
      rw [u2] at this
      refine eq_of_part vm vp q1 u1 ?_
      rw [← q2]; exact this
  · intro F hpf
    rw [hpf] at hrow
    obtain ⟨hF, k, hk, hr, hon⟩ := hrow
    have h1 := (nb_parent_some hap hl' o2 hanb hr).2
    rw [p2] at h1
    obtain ⟨j, hj⟩ := neighbour_of_part vp hF p1 hk hon vm q1 (h1.symm.trans q2)
    exact ⟨hF, j, inside_eq.2 hj⟩

theorem lifts : LeafNeighbor.Lifts faceSchemeRepaired InFace inside := by
  intro e f m g he hf hl h
  have hf' : f < nf e.type := by rw [← numFaces_eq]; exact hf
  have hl' : 0 < e.level := hl
  obtain ⟨h1, h2⟩ := parent_neighbor he hf' hl' h
  cases hpf : faceParentFace e f with
  | none => exact Or.inl (h1 hpf)
  | some F =>
    obtain ⟨hF, j, hj⟩ := h2 F hpf
    exact Or.inr ⟨F, j, ⟨hf', hF, ((parentFace_iff he hl' hf' F).1 hpf).2⟩, hj⟩

end T8.Pyramid
