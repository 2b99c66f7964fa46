/-
C48: the iteration over the leaves at a face of an element.
-/
import Verif.Lemmas.FaceIterate
import Verif.Lemmas.Sample
import Verif.Props.StandaloneFaceScheme

namespace T8.FaceIterate
open T8.RTree T8.Leaf T8.Search

variable {T : RTree} {In : T.E → Nat → T.E → Nat → Prop} {S : Scheme T} {F : FaceScheme T}

/-- **C48**: the iteration over face `f` of `e` makes exactly the calls it should. `all` are the leaves of the tree; `ls` are leaves below
`e`, with the index `first` for the first of them. -/
theorem C48_iterate (hS : S.Lawful) (hF : F.Lawful In) (callback : FaceFn T) (ltreeid : Nat) {all ls : List T.E} (ho : T.Ordered all)
    (hsub : ls.Sublist all) (first : Nat) {e : T.E} {f : Nat} (he : T.Valid e) (hf : f < F.numFaces e)
    (hd : ∀ x ∈ ls, T.Desc e x) (h : FaceRecord T) :
    ∃ log, iterateFaces S F callback ltreeid all e f ls first h = some (h ++ log) ∧ Iterated In ltreeid all ls first e f log ∧
      Answered callback h log :=
  iterateFaces_spec hS hF callback ltreeid ho hsub first h rfl he hf (PartBelow.all hd)

/-- **C48**: started on a leaf, the iteration calls the callback once, whatever leaves it is given. -/
theorem C48_start_leaf (hS : S.Lawful) (callback : FaceFn T) (ltreeid : Nat) {all ls : List T.E} (ho : T.Ordered all)
    (first : Nat) {e : T.E} (f : Nat) (he : e ∈ all) (hne : ls ≠ []) (h : FaceRecord T) :
    iterateFaces S F callback ltreeid all e f ls first h =
      some (h ++ [(⟨ltreeid, e, f, true, ls, first⟩, callback h ⟨ltreeid, e, f, true, ls, first⟩)]) := by
  obtain ⟨b, h1, h2⟩ := isLeafOrGhost_spec hS ho (fun h => by rw [h] at he; cases he) (ho.1 e he)
  have hb := h2.2 he
  subst hb
  rw [iterateFaces, if_neg (by simpa using hne), h1]
  simp [checkLeaves]

/-- **C48**: without leaves nothing is called. -/
theorem C48_no_leaves (callback : FaceFn T) (ltreeid : Nat) (all : List T.E) (first : Nat) (e : T.E) (f : Nat) (h : FaceRecord T) :
    iterateFaces S F callback ltreeid all e f [] first h = some h := by
  rw [iterateFaces]
  rfl

section
variable {tree : Nat} {all ls : List T.E} {first : Nat} {e : T.E} {f : Nat} {log : FaceRecord T}

/-- **C48**: the callback is called at most once on an element. -/
theorem C48_once (he : T.Valid e) (h : Iterated In tree all ls first e f log) {i j : Nat} {c d : FaceCall T} {r s : Bool}
    (hi : log[i]? = some (c, r)) (hj : log[j]? = some (d, s)) (hcd : c.elem = d.elem) : i = j := by
  have hlt : ∀ x, T.Valid x → ¬ T.Lt x x := ltTotalOrder.1
  have hv : T.Valid d.elem := ((h.calls d s (List.mem_of_getElem? hj)).2.1).valid he
  have hp := List.pairwise_iff_getElem.1 h.order
  obtain ⟨hi', hi2⟩ := List.getElem?_eq_some_iff.1 hi
  obtain ⟨hj', hj2⟩ := List.getElem?_eq_some_iff.1 hj
  rcases Nat.lt_trichotomy i j with hij | hij | hij
  · have := hp i j hi' hj' hij
    rw [hi2, hj2] at this
    simp only [hcd] at this
    exact absurd this (hlt _ hv)
  · exact hij
  · have := hp j i hj' hi' hij
    rw [hi2, hj2] at this
    simp only [hcd] at this
    exact absurd this (hlt _ hv)

/-- **C48**: the callback is called on a leaf exactly if the leaf has a face in face `f` of `e` and no ancestor of it was rejected; it
is told that the element is a leaf, its face in face `f`, and its index. -/
theorem C48_leaf (hF : F.Lawful In) (he : T.Valid e) (ho : T.Ordered all) (hsub : ls.Sublist all) (hd : ∀ x ∈ ls, T.Desc e x)
    (h : Iterated In tree all ls first e f log) {k : Nat} {x : T.E} (hk : ls[k]? = some x) :
    ((∃ r, Called log x r) ↔ (∃ g, In x g e f) ∧ ∀ a, T.Desc e a → T.Desc a x → a ≠ x → ¬ Called log a false) ∧
    ∀ c r g, (c, r) ∈ log → c.elem = x → In x g e f → c.isLeaf = true ∧ c.face = g ∧ c.leaves = [x] ∧ c.index = first + k := by
  have hx := List.mem_of_getElem? hk
  have hdx := hd x hx
  constructor
  · constructor
    · intro hc
      obtain ⟨_, h2, _, h4⟩ := (h.called x).1 hc
      refine ⟨h2, fun a ha hax hne ⟨c, hce, hm⟩ => ?_⟩
      obtain ⟨d, hde, hm'⟩ := h4 a ha hax hne
      obtain ⟨i, hi⟩ := List.getElem?_of_mem hm
      obtain ⟨j, hj⟩ := List.getElem?_of_mem hm'
      obtain rfl := C48_once he h hi hj (hce.trans hde.symm)
      cases hi.symm.trans hj
    · rintro ⟨⟨g, hg⟩, hno⟩
      have key : ∀ n a, T.level a = n → T.Desc e a → T.Desc a x → ∃ r, Called log a r := by
        intro n
        induction n using Nat.strongRecOn with
        | _ n ih =>
        intro a hn hda hax
        obtain ⟨g', hg', _⟩ := hF.between x g a e f he hda hax hg
        refine (h.called a).2 ⟨hda, ⟨g', hg'⟩, ⟨x, hx, hax⟩, ?_⟩
        intro b hdb hba hne
        have hvb := hdb.valid he
        have hlev : T.level b < T.level a := by
          rcases Nat.lt_or_ge (T.level b) (T.level a) with h | h
          · exact h
          · exact absurd (hba.eq_of_level hvb h).symm hne
        obtain ⟨r, hr⟩ := ih _ (by omega) b rfl hdb (hba.trans hax)
        cases r with
        | true => exact hr
        | false =>
          refine absurd hr (hno b hdb (hba.trans hax) ?_)
          intro hbx
          subst hbx
          have := hax.level_le (hda.valid he)
          omega
      exact key _ x rfl hdx Desc.refl
  · intro c r g hm hce hg
    obtain ⟨_, _, h3, h4, k', h5, h6⟩ := h.calls c r hm
    rw [hce] at h3 h4 h5
    have hl := PartBelow.leaf h5 (ho.sublist hsub) hx
    refine ⟨h4.2 (hsub.subset hx), hF.unique x _ _ e f he hdx h3 hg, hl, ?_⟩
    obtain ⟨A, B, q1, q2, _⟩ := h5
    rw [h6]
    congr 1
    refine pos_unique (ho.sublist hsub).nodup ?_ hk
    rw [q1, hl, ← q2]
    simp

open Classical in
/-- **C48**: if the callback accepts everything, the leaves it is called on are the leaves with a face in face `f` of `e`, each once
and in the order of the array. -/
theorem C48_leaves (hF : F.Lawful In) (he : T.Valid e) (ho : T.Ordered all) (hsub : ls.Sublist all) (hd : ∀ x ∈ ls, T.Desc e x)
    (h : Iterated In tree all ls first e f log) (hacc : ∀ c r, (c, r) ∈ log → r = true) :
    (log.filter (fun p => p.1.isLeaf)).map (fun p => p.1.elem) = ls.filter (fun x => decide (∃ g, In x g e f)) := by
  have hols := ho.sublist hsub
  have hlt : ∀ x, T.Valid x → ¬ T.Lt x x := ltTotalOrder.1
  have hasymm : ∀ x y, T.Valid x → T.Valid y → T.Lt x y → ¬ T.Lt y x := by
    intro x y hx hy h1 h2
    exact hlt x hx (ltTotalOrder.2.1 x y x hx hy hx h1 h2)
  have hmem : ∀ x, x ∈ (log.filter (fun p => p.1.isLeaf)).map (fun p => p.1.elem) ↔
      x ∈ ls.filter (fun x => decide (∃ g, In x g e f)) := by
    intro x
    simp only [List.mem_map, List.mem_filter, Prod.exists, decide_eq_true_eq]
    constructor
    · rintro ⟨c, r, ⟨hm, hl⟩, rfl⟩
      obtain ⟨_, h2, h3, h4, k', h5, _⟩ := h.calls c r hm
      refine ⟨?_, c.face, h3⟩
      obtain ⟨_, _, ⟨y, hy, hxy⟩, _⟩ := (h.called c.elem).1 ⟨r, c, rfl, hm⟩
      have := leaf_below (view := [y]) ho ((List.singleton_sublist.2 hy).trans hsub) (h4.1 hl) (by simpa using hxy) y (by simp)
      rwa [← this]
    · rintro ⟨hx, hg⟩
      obtain ⟨k, hk⟩ := List.getElem?_of_mem hx
      have key := C48_leaf hF he ho hsub hd h hk
      obtain ⟨r, c, hce, hm⟩ := key.1.2 ⟨hg, fun a _ _ _ ⟨c, _, hm⟩ => by cases hacc c _ hm⟩
      obtain ⟨g, hg⟩ := hg
      exact ⟨c, r, ⟨hm, (key.2 c r g hm hce hg).1⟩, hce⟩
  have hp1 : ((log.filter (fun p => p.1.isLeaf)).map (fun p => p.1.elem)).Pairwise T.Lt := by
    rw [List.pairwise_map]
    exact h.order.sublist List.filter_sublist
  have hp2 : (ls.filter (fun x => decide (∃ g, In x g e f))).Pairwise T.Lt :=
    (hols.2.sublist List.filter_sublist).imp Or.inl
  have hv2 : ∀ x ∈ ls.filter (fun x => decide (∃ g, In x g e f)), T.Valid x := fun x hx => hols.1 x (List.mem_filter.1 hx).1
  have hv1 : ∀ x ∈ (log.filter (fun p => p.1.isLeaf)).map (fun p => p.1.elem), T.Valid x := fun x hx => hv2 x ((hmem x).1 hx)
  have hn1 : ((log.filter (fun p => p.1.isLeaf)).map (fun p => p.1.elem)).Nodup :=
    hp1.imp_of_mem (fun ha _ hab heq => hlt _ (hv1 _ ha) (by rw [← heq] at hab; exact hab))
  have hn2 : (ls.filter (fun x => decide (∃ g, In x g e f))).Nodup :=
    hp2.imp_of_mem (fun ha _ hab heq => hlt _ (hv2 _ ha) (by rw [← heq] at hab; exact hab))
  refine List.Perm.eq_of_pairwise ?_ hp1 hp2 ((List.perm_ext_iff_of_nodup hn1 hn2).2 hmem)
  intro a b ha hb hab hba
  exact absurd hba (hasymm a b (hv1 a ha) (hv2 b hb) hab)

end

/-! ### Examples -/

section
open T8.Sample T8.Standalone

/-- `C48_iterate` applies to the sample mesh, its root and each face. -/
example (callback : FaceFn Q) (f : Nat) (hf : f < 4) :
    ∃ log, iterateFaces (Cls.scheme .quad) (Cls.faceScheme .quad) callback 0 leaves Q.root f leaves 0 [] = some ([] ++ log) ∧
      Iterated (Cls.InFace .quad) 0 leaves leaves 0 Q.root f log ∧ Answered callback [] log :=
  C48_iterate (Cls.scheme_lawful .quad) (Cls.faceScheme_lawful .quad) callback 0 ordered (List.Sublist.refl _) 0 Q.valid_root hf
    (fun x hx => desc_root (ordered.1 x hx)) []

/-- At face 1 of the root, `x = 1`, an iteration with a callback that accepts everything visits the leaf `d 1`, of index 2 and with face 1, but
not the leaf `c 0`. -/
example : ∃ log, iterateFaces (Cls.scheme .quad) (Cls.faceScheme .quad) (fun _ _ => true) 0 leaves Q.root 1 leaves 0 [] =
      some ([] ++ log) ∧ (∃ c, (c, true) ∈ log ∧ c.elem = d 1 ∧ c.isLeaf = true ∧ c.face = 1 ∧ c.index = 2) ∧
      ¬ ∃ r, Called log (c 0) r := by
  have hF := Cls.faceScheme_lawful .quad
  have hS := Cls.scheme_lawful .quad
  have hd : ∀ x ∈ leaves, Q.Desc Q.root x := fun x hx => desc_root (ordered.1 x hx)
  obtain ⟨log, h1, h2, h3⟩ := C48_iterate hS hF (fun _ _ => true) 0 ordered
    (List.Sublist.refl _) 0 (e := Q.root) (f := 1) Q.valid_root (by decide) hd []
  have hacc : ∀ c r, (c, r) ∈ log → r = true := by
    intro c r hm
    obtain ⟨i, hi⟩ := List.getElem?_of_mem hm
    exact h3 i c r hi
  refine ⟨log, h1, ?_, ?_⟩
  · have e1 : Cls.InFace .quad (c 1) 1 Q.root 1 := hF.childFace Q.root 1 0 1 Q.valid_root (by decide) (by decide) (by decide)
    have e2 : Cls.InFace .quad (d 1) 1 (c 1) 1 :=
      hF.childFace (c 1) 1 0 1 (valid_c (by decide)) (lt_max (by decide)) (by decide) (by decide)
    have e3 := hF.trans _ _ _ _ _ _ e2 e1
    have key := C48_leaf hF Q.valid_root ordered (List.Sublist.refl _) hd h2 (k := 2) (x := d 1) rfl
    obtain ⟨r, x, hx, hm⟩ := key.1.2 ⟨⟨1, e3⟩, fun a _ _ _ ⟨x, _, hm⟩ => by cases hacc x _ hm⟩
    obtain ⟨k1, k2, _, k4⟩ := key.2 x r 1 hm hx e3
    have hr := hacc x r hm
    subst hr
    exact ⟨x, hm, hx, k1, k2, by omega⟩
  · intro hc
    have key := C48_leaf hF Q.valid_root ordered (List.Sublist.refl _) hd h2 (k := 0) (x := c 0) rfl
    obtain ⟨⟨g, hg⟩, _⟩ := key.1.1 hc
    have := (hF.childIds_mem Q.root 1 Q.valid_root (by decide) (by decide) 0).2 ⟨by decide, g, hg⟩
    revert this
    decide

end

end T8.FaceIterate
