/-
C37: `t8_forest_balance` and `t8_forest_is_balanced`.
-/
import Verif.Lemmas.Balance
import Verif.Lemmas.Sample
import Verif.Props.StandaloneFaceScheme
import Verif.Props.StandaloneFaces

namespace T8.Balance
open RTree T8.Adapt T8.Populate T8.BalanceSpec

variable {T : Nat → RTree} {X : Lib T} {In : ∀ g, (T g).E → Nat → (T g).E → Nat → Prop}
  {Ok : List (List (LocalTree T)) → Prop}

/-- The trees of all processes. -/
abbrev allTrees (procs : List (Process T)) : List (List (LocalTree T)) := procs.map (fun P => P.trees)

/-- The ghost layer of a process. -/
def Lib.ghosts (X : Lib T) (all : List (List (LocalTree T))) (p : Nat) : List (LocalTree T) := (X.ghost all p).getD []

/-- The trees after the repartition. -/
def Lib.parts (X : Lib T) (all : List (List (LocalTree T))) : List (List (LocalTree T)) := (X.partition all).getD []

theorem Lib.Lawful.ghosts (hX : X.Lawful In Ok) (all : List (List (LocalTree T))) (hg : Good all) (ho : Ok all) (p : Nat)
    (trees : List (LocalTree T)) (hp : all[p]? = some trees) : X.ghost all p = some (X.ghosts all p) ∧ Stored (X.ghosts all p) ∧
    (∀ t ∈ X.ghosts all p, (T t.cls).Ordered t.leaves) ∧ (∀ x ∈ procSeq (X.ghosts all p), x ∈ leafSeq all) ∧
    ∀ g e, ⟨g, e⟩ ∈ procSeq trees → ∀ f, f < (X.faces g).numFaces e → ∀ x ∈ leafSeq all, Across X.neighbor In g e f x →
      x ∈ procSeq trees ∨ x ∈ procSeq (X.ghosts all p) := by
  obtain ⟨G, h1, h2⟩ := hX.ghost all hg ho p trees hp
  have : X.ghosts all p = G := by rw [Lib.ghosts, h1]; rfl
  rw [this]
  exact ⟨h1, h2⟩

theorem Lib.Lawful.parts (hX : X.Lawful In Ok) (all : List (List (LocalTree T))) (hg : Good all) (ho : Ok all) :
    X.partition all = some (X.parts all) ∧ leafSeq (X.parts all) = leafSeq all ∧ (∀ trees ∈ X.parts all, Stored trees) ∧
      Ok (X.parts all) := by
  obtain ⟨G, h1, h2⟩ := hX.partition all hg ho
  have : X.parts all = G := by rw [Lib.parts, h1]; rfl
  rw [this]
  exact ⟨h1, h2⟩

/-- The local trees with ghost layers. -/
def withLayers (X : Lib T) (all : List (List (LocalTree T))) : List (Process T) := all.mapIdx (fun p trees => ⟨trees, some (X.ghosts all p)⟩)

theorem withGhosts_eq (hX : X.Lawful In Ok) {all : List (List (LocalTree T))} (hg : Good all) (ho : Ok all) :
    withGhosts X all = some (withLayers X all) := by
  rw [withGhosts, withLayers, List.mapIdx_eq_zipIdx_map]
  apply mapM_some
  rintro ⟨trees, p⟩ hP
  have hp : all[p]? = some trees := List.mem_zipIdx_iff_getElem?.1 hP
  rw [(hX.ghosts all hg ho p trees hp).1]
  rfl

/-- On no process, with its ghost layer, a leaf that may be refined has a known leaf properly inside of a half face neighbour. -/
def Quiet (X : Lib T) (all : List (List (LocalTree T))) : Prop :=
  ∀ (p : Nat) trees, all[p]? = some trees → ∀ g e, ⟨g, e⟩ ∈ procSeq trees → (T g).level e < X.maxlevel →
    ¬ Finer X ⟨trees, some (X.ghosts all p)⟩ g e

section Views
variable (hX : X.Lawful In Ok) {all : List (List (LocalTree T))} (hg : Good all) (ho : Ok all) {p : Nat} {trees : List (LocalTree T)} (hp : all[p]? = some trees)
include hX hg ho hp

theorem view_ok {gs : Option (List (LocalTree T))} (h : gs = none ∨ gs = some (X.ghosts all p)) : ProcOk (⟨trees, gs⟩ : Process T) := by
  have hm := List.mem_of_getElem? hp
  refine ⟨hg.stored _ hm, fun t ht => hg.tree hm ht, ?_⟩
  intro gs' h'
  rcases h with rfl | rfl
  · cases h'
  · obtain rfl := Option.some.inj h'
    obtain ⟨_, h1, h2, _⟩ := hX.ghosts all hg ho p trees hp
    exact ⟨h1, h2⟩

theorem view_known {gs : Option (List (LocalTree T))} (h : gs = none ∨ gs = some (X.ghosts all p)) {x : BalanceSpec.Leaf T}
    (hk : Known (⟨trees, gs⟩ : Process T) x) : x ∈ leafSeq all := by
  rcases hk with hk | ⟨gs', h', hk⟩
  · exact procSeq_mem_leafSeq (List.mem_of_getElem? hp) hk
  · rcases h with rfl | rfl
    · cases h'
    · obtain rfl := Option.some.inj h'
      exact (hX.ghosts all hg ho p trees hp).2.2.2.1 x hk

theorem finer_level {L : Nat} (hL : L ≤ X.maxlevel) (hlev : ∀ x ∈ leafSeq all, x.level ≤ L) {gs : Option (List (LocalTree T))}
    (h : gs = none ∨ gs = some (X.ghosts all p)) {g : Nat} {e : (T g).E} (he : ⟨g, e⟩ ∈ procSeq trees) (hl : (T g).level e < X.maxlevel)
    (hf : Finer X ⟨trees, gs⟩ g e) : (T g).level e + 2 ≤ L := by
  obtain ⟨f, hf, n, hn, h', hh, x, hk, hd, hne⟩ := hf
  have hv : (T g).Valid e := hg.valid (procSeq_mem_leafSeq (List.mem_of_getElem? hp) he)
  obtain ⟨v1, v2, _⟩ := half_spec hX hv hl hf hn hh
  have h1 := hlev _ (view_known hX hg ho hp h hk)
  have h2 := hd.level_le v1
  have h3 : (T n.tree).level x ≠ (T n.tree).level h' := by
    intro h3
    exact hne (hd.eq_of_level v1 (by omega))
  simp only [BalanceSpec.Leaf.level] at h1
  omega

end Views

theorem Finer.mono {P P' : Process T} (h : ∀ x, Known P' x → Known P x) {g : Nat} {e : (T g).E} (hf : Finer X P' g e) : Finer X P g e := by
  obtain ⟨f, hf, n, hn, h', hh, x, hk, r⟩ := hf
  exact ⟨f, hf, n, hn, h', hh, x, h _ hk, r⟩

/-- In a quiet forest no leaf touches a leaf that is larger by two levels or more. -/
theorem Quiet.balanced (hX : X.Lawful In Ok) {all : List (List (LocalTree T))} (hg : Good all) (ho : Ok all) (hlev : ∀ x ∈ leafSeq all, x.level ≤ X.maxlevel)
    (hq : Quiet X all) : Balanced X.neighbor In (fun g e => (X.faces g).numFaces e) (leafSeq all) := by
  intro g e he f hf x hx hac
  by_contra hcon
  obtain ⟨trees, ht, het⟩ := List.mem_flatMap.1 he
  obtain ⟨p, hp⟩ := List.mem_iff_getElem?.1 ht
  have hv := hg.valid he
  have hxl := hlev x hx
  have hm := hX.maxlevel
  simp only [BalanceSpec.Leaf.level] at hcon hxl
  refine hq p trees hp g e het (by omega) ⟨f, hf, ?_⟩
  have hknown : Known (⟨trees, some (X.ghosts all p)⟩ : Process T) x := by
    rcases (hX.ghosts all hg ho p trees hp).2.2.2.2 g e het f hf x hx hac with h | h
    · exact Or.inl h
    · exact Or.inr ⟨_, rfl, h⟩
  obtain ⟨n, h, hn, htr, hd, hin⟩ := hac
  obtain ⟨n1, n2, n3⟩ := n
  obtain ⟨x1, x2⟩ := x
  dsimp only at htr
  subst htr
  dsimp only at hd hin
  obtain ⟨v1, v2, v3, _⟩ := hX.neighbor g e f _ hv (by omega) hf hn
  dsimp only at v1 v2 v3 hcon hxl
  have hm1 := hm n1
  have hlt : (T n1).level n2 < (T n1).maxLevel := by omega
  obtain ⟨k, i, hk, hi, hdx, _⟩ := T8.Owner.face_child (hX.faces n1) v1 hlt v3 hd (by omega) hin
  refine ⟨_, hn, (T n1).child n2 i, ?_, x2, hknown, hdx, ?_⟩
  · dsimp only
    rw [(hX.faces n1).children _ _ v1 hlt v3]
    exact List.mem_map_of_mem (List.mem_of_getElem? hk)
  · intro hxe
    have := (T n1).level_child n2 i v1 hlt hi
    rw [← hxe] at this
    omega

/-- `t8_forest_is_balanced` on one process, with or without ghost layer. If `maxlevel_existing` is not set, no leaf may be of the maximum
level. -/
theorem isBalanced_spec (hX : X.Lawful In Ok) {all : List (List (LocalTree T))} (hg : Good all) (ho : Ok all) {existing : Int}
    (hex : existing ≤ X.maxlevel) (hl : existing ≤ 0 → ∀ x ∈ leafSeq all, x.level < X.maxlevel) {p : Nat} {trees : List (LocalTree T)}
    (hp : all[p]? = some trees) {gs : Option (List (LocalTree T))} (h : gs = none ∨ gs = some (X.ghosts all p)) :
    ∃ b, isBalanced X ⟨trees, gs⟩ existing = some b ∧ (b = true ↔ ∀ g e, ⟨g, e⟩ ∈ procSeq trees →
      (existing ≤ 0 ∨ ((T g).level e : Int) ≤ existing - 2) → ¬ Finer X ⟨trees, gs⟩ g e) := by
  have hok := view_ok hX hg ho hp h
  have hall : ∀ t ∈ trees, ∃ b, t.leaves.anyM (fun e => balanceAdapt X ⟨trees, gs⟩ existing t.cls e) = some b ∧
      (b = true ↔ ∃ e ∈ t.leaves, (existing ≤ 0 ∨ ((T t.cls).level e : Int) ≤ existing - 2) ∧ Finer X ⟨trees, gs⟩ t.cls e) := by
    intro t ht
    apply anyM_spec
    intro e he
    have hmem : (⟨t.cls, e⟩ : BalanceSpec.Leaf T) ∈ procSeq trees := mem_procSeq.2 ⟨t, ht, rfl, he⟩
    have hmem' := procSeq_mem_leafSeq (List.mem_of_getElem? hp) hmem
    exact balanceAdapt_spec hX hok hex (hg.valid hmem') (fun h0 => hl h0 _ hmem')
  obtain ⟨b, hb, hb'⟩ := anyM_spec hall
  refine ⟨!b, by simp only [isBalanced]; rw [hb]; rfl, ?_⟩
  rw [Bool.not_eq_true', ← Bool.not_eq_true, hb']
  constructor
  · intro hno g e he hc hf
    obtain ⟨t, ht, rfl, he⟩ := mem_procSeq.1 he
    exact hno ⟨t, ht, e, he, hc, hf⟩
  · rintro hno ⟨t, ht, e, he, hc, hf⟩
    exact hno t.cls e (mem_procSeq.2 ⟨t, ht, rfl, he⟩) hc hf

theorem Quiet.test (hX : X.Lawful In Ok) {all : List (List (LocalTree T))} (hg : Good all) (ho : Ok all) (hq : Quiet X all) {existing : Int}
    (hex : existing ≤ X.maxlevel) (hl : existing ≤ 0 → ∀ x ∈ leafSeq all, x.level < X.maxlevel) {p : Nat} {trees : List (LocalTree T)}
    (hp : all[p]? = some trees) {gs : Option (List (LocalTree T))} (h : gs = none ∨ gs = some (X.ghosts all p)) :
    isBalanced X ⟨trees, gs⟩ existing = some true := by
  obtain ⟨b, b1, b2⟩ := isBalanced_spec hX hg ho hex hl hp h
  rw [b1, b2.2 ?_]
  intro g e he hc hf
  have hle : (T g).level e < X.maxlevel := by
    rcases hc with h0 | h0
    · exact hl h0 _ (procSeq_mem_leafSeq (List.mem_of_getElem? hp) he)
    · omega
  refine hq p trees hp g e he hle (hf.mono ?_)
  intro x hk
  rcases hk with hk | ⟨gs', h1, h2⟩
  · exact Or.inl hk
  · rcases h with rfl | rfl
    · cases h1
    · exact Or.inr ⟨gs', h1, h2⟩

/-! ### One round -/

theorem map_mapIdx_ghosts (all : List (List (LocalTree T))) : allTrees (withLayers X all) = all := by
  apply List.ext_getElem?
  intro i
  simp [withLayers, allTrees, Function.comp_def]

theorem map_withoutGhosts (all : List (List (LocalTree T))) : allTrees (withoutGhosts all) = all := by
  simp [withoutGhosts, allTrees, Function.comp_def]

/-- The trees of a process after one adaptation. -/
def newTrees (X : Lib T) (existing : Int) (P : Process T) : List (LocalTree T) :=
  P.trees.map (fun t => ⟨t.gtree, t.cls, t.leaves.flatMap (split (wants X P existing t.cls))⟩)

/-- What becomes of a leaf. -/
def step (X : Lib T) (existing : Int) (P : Process T) (x : BalanceSpec.Leaf T) : List (BalanceSpec.Leaf T) :=
  (split (wants X P existing x.1) x.2).map (Sigma.mk x.1)

theorem procSeq_newTrees (existing : Int) (P : Process T) :
    procSeq (newTrees X existing P) = (procSeq P.trees).flatMap (step X existing P) := by
  rw [procSeq, newTrees, List.flatMap_map, procSeq, List.flatMap_assoc]
  apply List.flatMap_congr
  intro t _
  rw [List.map_flatMap, List.flatMap_map]
  rfl

theorem refines_flatMap {s : BalanceSpec.Leaf T → List (BalanceSpec.Leaf T)} : ∀ {l : List (BalanceSpec.Leaf T)},
    (∀ x ∈ l, ∃ part, (T x.1).Tiles x.2 part ∧ s x = part.map (Sigma.mk x.1)) → Refines l (l.flatMap s)
  | [], _ => .nil
  | ⟨g, e⟩ :: l, h => by
    obtain ⟨part, h1, h2⟩ := h ⟨g, e⟩ (by simp)
    rw [List.flatMap_cons, h2]
    exact .cons h1 (refines_flatMap (fun x hx => h x (by simp [hx])))

theorem tiles_children {T : RTree} {e : T.E} (hl : T.level e < T.maxLevel) : T.Tiles e ((List.range (T.nc e)).map (T.child e)) := by
  have := Tiles.node (T := T) e (fun i => [T.child e i]) hl (fun i _ => .leaf _)
  rwa [← List.map_eq_flatMap] at this

/-- The state of the loop. -/
structure Inv (X : Lib T) (Ok : List (List (LocalTree T)) → Prop) (L : Nat) (seq0 : List (BalanceSpec.Leaf T)) (s : State T) : Prop where
  good : Good (allTrees s.procs)
  ok : Ok (allTrees s.procs)
  refines : Refines seq0 (leafSeq (allTrees s.procs))
  level : ∀ x ∈ leafSeq (allTrees s.procs), x.level ≤ L
  ghosts : s.done = false → ∀ (p : Nat) P, s.procs[p]? = some P → P.ghosts = some (X.ghosts (allTrees s.procs) p)
  after : ∀ (p : Nat) P, s.procs[p]? = some P → P.ghosts = none ∨ P.ghosts = some (X.ghosts (allTrees s.procs) p)
  finished : s.done = true → Quiet X (allTrees s.procs)

/-- How much can still be refined. -/
def total (L : Nat) (s : State T) : Nat := ((leafSeq (allTrees s.procs)).map (BalanceSpec.Leaf.toDo L)).sum

theorem withLayers_get {all : List (List (LocalTree T))} {p : Nat} {P : Process T} (h : (withLayers X all)[p]? = some P) :
    P.ghosts = some (X.ghosts all p) := by
  rw [withLayers, List.getElem?_mapIdx] at h
  obtain ⟨t, _, rfl⟩ := Option.map_eq_some_iff.1 h
  rfl

theorem round_spec (hX : X.Lawful In Ok) {L : Nat} (hL : L ≤ X.maxlevel) {seq0 : List (BalanceSpec.Leaf T)} {s : State T} (hI : Inv X Ok L seq0 s)
    (hd : s.done = false) (repartition : Bool) :
    ∃ s', round X repartition L s = some s' ∧ Inv X Ok L seq0 s' ∧ (s'.done = false → total L s' < total L s) ∧
      (Quiet X (allTrees s.procs) → s'.done = true) ∧ (s'.done = true → allTrees s'.procs = allTrees s.procs) := by
  have hpos := hX.pos
  have hview : ∀ (p : Nat) P, s.procs[p]? = some P →
      (allTrees s.procs)[p]? = some P.trees ∧ P = ⟨P.trees, some (X.ghosts (allTrees s.procs) p)⟩ := by
    intro p P hP
    refine ⟨by simp [hP], ?_⟩
    rw [← hI.ghosts hd p P hP]
  have hok : ∀ P ∈ s.procs, ProcOk P := by
    intro P hP
    obtain ⟨p, hp⟩ := List.mem_iff_getElem?.1 hP
    obtain ⟨h1, h2⟩ := hview p P hp
    rw [h2]
    exact view_ok hX hI.good hI.ok h1 (Or.inr rfl)
  have hmemP : ∀ P ∈ s.procs, ∀ x ∈ procSeq P.trees, x ∈ leafSeq (allTrees s.procs) :=
    fun P hP x hx => procSeq_mem_leafSeq (List.mem_map_of_mem hP) hx
  -- what a leaf wants
  have hwant : ∀ (p : Nat) P, s.procs[p]? = some P → ∀ g e, ⟨g, e⟩ ∈ procSeq P.trees →
      (wants X P L g e = true ↔ (T g).level e < X.maxlevel ∧ Finer X ⟨P.trees, some (X.ghosts (allTrees s.procs) p)⟩ g e) ∧
      (wants X P L g e = true → (T g).level e + 2 ≤ L) := by
    intro p P hP g e he
    obtain ⟨h1, h2⟩ := hview p P hP
    have hm := List.mem_of_getElem? hP
    have hel := hI.level _ (hmemP P hm _ he)
    have hv := hI.good.valid (hmemP P hm _ he)
    simp only [BalanceSpec.Leaf.level] at hel
    obtain ⟨b, b1, b2⟩ := balanceAdapt_spec hX (hok P hm) (existing := L) (by omega) hv (by omega)
    rw [wants, b1]
    have hb : (some b == some true) = true ↔ b = true := by cases b <;> decide
    rw [hb, b2, ← h2]
    have hfl : (T g).level e < X.maxlevel → Finer X P g e → (T g).level e + 2 ≤ L := by
      intro hlm hf
      rw [h2] at hf
      exact finer_level hX hI.good hI.ok h1 hL hI.level (Or.inr rfl) he hlm hf
    have hlt : ((L : Int) ≤ 0 ∨ ((T g).level e : Int) ≤ L - 2) → (T g).level e < X.maxlevel := by omega
    refine ⟨⟨fun h => ⟨hlt h.1, h.2⟩, fun h => ⟨Or.inr ?_, h.2⟩⟩, fun h => hfl (hlt h.1) h.2⟩
    have := hfl h.1 h.2
    omega
  have hstep : ∀ P ∈ s.procs, ∀ x ∈ procSeq P.trees,
      (wants X P L x.1 x.2 = false ∧ step X L P x = [x]) ∨
      (wants X P L x.1 x.2 = true ∧ x.level + 2 ≤ L ∧ step X L P x = ((List.range ((T x.1).nc x.2)).map ((T x.1).child x.2)).map (Sigma.mk x.1)) := by
    rintro P hP ⟨g, e⟩ hx
    obtain ⟨p, hp⟩ := List.mem_iff_getElem?.1 hP
    cases hw : wants X P L g e
    · exact Or.inl ⟨rfl, by simp [step, split, hw]⟩
    · exact Or.inr ⟨rfl, (hwant p P hp g e hx).2 hw, by simp [step, split, hw]⟩
  -- the new trees
  have hrun : s.procs.zipIdx.mapM (fun P => adaptProcess X s.procs.length L s.incomplete P.2 P.1) =
      some (s.procs.zipIdx.map (fun P => (newTrees X L P.1, s.incomplete,
        P.1.trees.all (fun t => t.leaves.all (fun e => !wants X P.1 L t.cls e))))) := by
    apply mapM_some
    rintro ⟨P, p⟩ hP
    have hm : P ∈ s.procs := (List.mem_zipIdx' hP).2 ▸ List.getElem_mem _
    exact adaptProcess_spec hX (hok P hm) (by omega) (fun x hx => by have := hI.level x (hmemP P hm x hx); omega) _ _ _
  have hfst : (s.procs.zipIdx.map (fun P => (newTrees X L P.1, s.incomplete,
        P.1.trees.all (fun t => t.leaves.all (fun e => !wants X P.1 L t.cls e))))).map (fun x => x.1) = s.procs.map (newTrees X L) := by
    rw [List.map_map]
    conv_rhs => rw [← List.zipIdx_map_fst 0 s.procs, List.map_map]
    rfl
  have hdone : (s.procs.zipIdx.map (fun P => (newTrees X L P.1, s.incomplete,
        P.1.trees.all (fun t => t.leaves.all (fun e => !wants X P.1 L t.cls e))))).all (fun x => x.2.2) =
      s.procs.all (fun P => P.trees.all (fun t => t.leaves.all (fun e => !wants X P L t.cls e))) := by
    rw [List.all_map]
    conv_rhs => rw [← List.zipIdx_map_fst 0 s.procs, List.all_map]
    rfl
  have hdone' : s.procs.all (fun P => P.trees.all (fun t => t.leaves.all (fun e => !wants X P L t.cls e))) = true ↔
      ∀ P ∈ s.procs, ∀ x ∈ procSeq P.trees, wants X P L x.1 x.2 = false := by
    simp only [List.all_eq_true, Bool.not_eq_true']
    constructor
    · rintro h P hP ⟨g, e⟩ hx
      obtain ⟨t, ht, rfl, he⟩ := mem_procSeq.1 hx
      exact h P hP t ht e he
    · intro h P hP t ht e he
      exact h P hP ⟨t.cls, e⟩ (mem_procSeq.2 ⟨t, ht, rfl, he⟩)
  have hseq : leafSeq (s.procs.map (newTrees X L)) = s.procs.flatMap (fun P => (procSeq P.trees).flatMap (step X L P)) := by
    rw [leafSeq, List.flatMap_map]
    exact List.flatMap_congr (fun P _ => procSeq_newTrees _ P)
  have hseq0 : leafSeq (allTrees s.procs) = s.procs.flatMap (fun P => procSeq P.trees) := by rw [leafSeq, List.flatMap_map]
  have hvalid : ∀ P ∈ s.procs, ∀ x ∈ procSeq P.trees, (T x.1).Valid x.2 := fun P hP x hx => hI.good.valid (hmemP P hP x hx)
  have href : Refines (leafSeq (allTrees s.procs)) (leafSeq (s.procs.map (newTrees X L))) := by
    rw [hseq, hseq0]
    have : ∀ l : List (Process T), (∀ P ∈ l, P ∈ s.procs) →
        Refines (l.flatMap (fun P => procSeq P.trees)) (l.flatMap (fun P => (procSeq P.trees).flatMap (step X L P))) := by
      intro l
      induction l with
      | nil => intro _; exact .nil
      | cons P l ih =>
        intro h
        rw [List.flatMap_cons, List.flatMap_cons]
        refine (refines_flatMap ?_).append (ih (fun Q hQ => h Q (by simp [hQ])))
        intro x hx
        rcases hstep P (h P (by simp)) x hx with ⟨_, h2⟩ | ⟨_, h2, h3⟩
        · exact ⟨[x.2], .leaf _, h2⟩
        · have := hX.maxlevel x.1
          simp only [BalanceSpec.Leaf.level] at h2
          exact ⟨_, tiles_children (by omega), h3⟩
    exact this _ (fun _ h => h)
  have hgood : Good (s.procs.map (newTrees X L)) := by
    refine ⟨?_, fun g => (href.ordered g (hI.good.ordered g)).1⟩
    intro trees ht
    obtain ⟨P, hP, rfl⟩ := List.mem_map.1 ht
    have hst := (hok P hP).trees
    refine ⟨?_, ?_⟩
    · rw [newTrees, List.map_map]
      exact hst.distinct
    · intro t ht
      obtain ⟨u, hu, rfl⟩ := List.mem_map.1 ht
      exact flatMap_split_ne_nil ((hok P hP).treesOrdered u hu) (hst.nonempty u hu)
  have hlev : ∀ x ∈ leafSeq (s.procs.map (newTrees X L)), x.level ≤ L := by
    rw [hseq]
    intro x hx
    obtain ⟨P, hP, hx⟩ := List.mem_flatMap.1 hx
    obtain ⟨y, hy, hx⟩ := List.mem_flatMap.1 hx
    rcases hstep P hP y hy with ⟨_, h2⟩ | ⟨_, h2, h3⟩
    · rw [h2] at hx
      obtain rfl := List.mem_singleton.1 hx
      exact hI.level _ (hmemP P hP _ hy)
    · rw [h3] at hx
      obtain ⟨z, hz, rfl⟩ := List.mem_map.1 hx
      obtain ⟨i, hi, rfl⟩ := List.mem_map.1 hz
      have := hX.maxlevel y.1
      simp only [BalanceSpec.Leaf.level] at h2 ⊢
      have := (T y.1).level_child y.2 i (hvalid P hP y hy) (by omega) (List.mem_range.1 hi)
      omega
  have hoknew : Ok (s.procs.map (newTrees X L)) := by
    refine hX.refine _ _ hI.good hI.ok hgood ?_ href ?_
    · rw [List.map_map, List.map_map]
      refine List.map_congr_left fun P _ => ?_
      simp only [Function.comp_apply, newTrees, List.map_map]
      rfl
    · intro M hM
      rw [hseq]
      intro x hx
      obtain ⟨P, hP, hx⟩ := List.mem_flatMap.1 hx
      obtain ⟨y, hy, hx⟩ := List.mem_flatMap.1 hx
      rcases hstep P hP y hy with ⟨_, h2⟩ | ⟨hw, h2, h3⟩
      · rw [h2] at hx
        obtain rfl := List.mem_singleton.1 hx
        exact hM _ (hmemP P hP _ hy)
      · obtain ⟨p, hp⟩ := List.mem_iff_getElem?.1 hP
        obtain ⟨w1, w2⟩ := (hwant p P hp y.1 y.2 hy).1.1 hw
        rw [h3] at hx
        obtain ⟨z, hz, rfl⟩ := List.mem_map.1 hx
        obtain ⟨i, hi, rfl⟩ := List.mem_map.1 hz
        have := hX.maxlevel y.1
        simp only [BalanceSpec.Leaf.level] at h2 ⊢
        have hc := (T y.1).level_child y.2 i (hvalid P hP y hy) (by omega) (List.mem_range.1 hi)
        by_cases hML : M ≤ X.maxlevel
        · have := finer_level hX hI.good hI.ok (hview p P hp).1 hML hM (Or.inr rfl) hy w1 w2
          omega
        · omega
  have hsum1 : ∀ P ∈ s.procs, (((procSeq P.trees).flatMap (step X L P)).map (BalanceSpec.Leaf.toDo L)).sum ≤ ((procSeq P.trees).map (BalanceSpec.Leaf.toDo L)).sum ∧
      ((∃ x ∈ procSeq P.trees, wants X P L x.1 x.2 = true) →
        (((procSeq P.trees).flatMap (step X L P)).map (BalanceSpec.Leaf.toDo L)).sum < ((procSeq P.trees).map (BalanceSpec.Leaf.toDo L)).sum) := by
    intro P hP
    have hone : ∀ x ∈ procSeq P.trees, wants X P L x.1 x.2 = true → ((step X L P x).map (BalanceSpec.Leaf.toDo L)).sum < BalanceSpec.Leaf.toDo L x := by
      rintro ⟨g, e⟩ hx hw
      rcases hstep P hP _ hx with ⟨h1, _⟩ | ⟨_, h2, h3⟩
      · rw [hw] at h1; cases h1
      · have := hX.maxlevel g
        simp only [BalanceSpec.Leaf.level] at h2
        rw [h3, toDo_refine (L := L) (hvalid P hP _ hx) (by dsimp only; omega) (by dsimp only; omega)]
        dsimp only
        omega
    obtain ⟨h1, h2⟩ := sum_flatMap_le (l := procSeq P.trees) (s := step X L P) (k := BalanceSpec.Leaf.toDo L) (f := BalanceSpec.Leaf.toDo L) (by
      intro x hx
      rcases hstep P hP x hx with ⟨_, h2⟩ | ⟨h1, _⟩
      · rw [h2]; simp
      · exact (hone x hx h1).le)
    exact ⟨h1, fun ⟨x, hx, hw⟩ => h2 ⟨x, hx, hone x hx hw⟩⟩
  have hsum0 : (l : List (Process T)) → ((l.flatMap (fun P => procSeq P.trees)).map (BalanceSpec.Leaf.toDo L)).sum =
      (l.map (fun P => ((procSeq P.trees).map (BalanceSpec.Leaf.toDo L)).sum)).sum := by
    intro l
    induction l with
    | nil => rfl
    | cons P l ih => simp [ih]
  have hsum : (∃ P ∈ s.procs, ∃ x ∈ procSeq P.trees, wants X P L x.1 x.2 = true) →
      ((leafSeq (s.procs.map (newTrees X L))).map (BalanceSpec.Leaf.toDo L)).sum < total L s := by
    rintro ⟨P, hP, hw⟩
    rw [total, hseq, hseq0, hsum0]
    exact (sum_flatMap_le (fun P hP => (hsum1 P hP).1)).2 ⟨P, hP, (hsum1 P hP).2 hw⟩
  have hquiet : Quiet X (allTrees s.procs) ↔ ∀ P ∈ s.procs, ∀ x ∈ procSeq P.trees, wants X P L x.1 x.2 = false := by
    constructor
    · rintro hq P hP ⟨g, e⟩ hx
      obtain ⟨p, hp⟩ := List.mem_iff_getElem?.1 hP
      obtain ⟨h1, _⟩ := hview p P hp
      by_contra hw
      obtain ⟨h2, h3⟩ := (hwant p P hp g e hx).1.1 (by simpa using hw)
      exact hq p _ h1 g e hx h2 h3
    · intro h p trees hp g e he hlt hf
      obtain ⟨P, hP, rfl⟩ := Option.map_eq_some_iff.1 ((List.getElem?_map ..).symm.trans hp)
      have := (hwant p P hP g e he).1.2 ⟨hlt, hf⟩
      rw [h P (List.mem_of_getElem? hP) ⟨g, e⟩ he] at this
      cases this
  have hsame : (∀ P ∈ s.procs, ∀ x ∈ procSeq P.trees, wants X P L x.1 x.2 = false) → s.procs.map (newTrees X L) = allTrees s.procs := by
    intro h
    apply List.map_congr_left
    intro P hP
    rw [newTrees]
    conv_rhs => rw [← List.map_id P.trees]
    apply List.map_congr_left
    intro t ht
    have : t.leaves.flatMap (split (wants X P L t.cls)) = t.leaves := by
      conv_rhs => rw [← List.flatMap_singleton' t.leaves]
      apply List.flatMap_congr
      intro e he
      have := h P hP ⟨t.cls, e⟩ (mem_procSeq.2 ⟨t, ht, rfl, he⟩)
      dsimp only at this
      simp [split, this]
    rw [this]
    rfl
  rw [round, hrun]
  simp only [Option.bind_eq_bind, Option.bind_some, hfst, hdone]
  by_cases hnw : ∀ P ∈ s.procs, ∀ x ∈ procSeq P.trees, wants X P L x.1 x.2 = false
  · rw [hdone'.2 hnw, hsame hnw]
    have hq := hquiet.2 hnw
    rw [withGhosts_eq hX hI.good hI.ok]
    cases repartition
    · refine ⟨_, rfl, ⟨?_, ?_, ?_, ?_, ?_, ?_, ?_⟩, ?_, ?_, ?_⟩ <;> dsimp only <;> (try rw [map_mapIdx_ghosts])
      · exact hI.good
      · exact hI.ok
      · exact hI.refines
      · exact hI.level
      · intro h; cases h
      · intro p P hP
        exact Or.inr (withLayers_get hP)
      · exact fun _ => hq
      · intro h; cases h
      · exact fun _ => rfl
      · exact fun _ => rfl
    · refine ⟨_, rfl, ⟨?_, ?_, ?_, ?_, ?_, ?_, ?_⟩, ?_, ?_, ?_⟩ <;> dsimp only <;> (try rw [map_withoutGhosts])
      · exact hI.good
      · exact hI.ok
      · exact hI.refines
      · exact hI.level
      · intro h; cases h
      · intro p P hP
        left
        obtain ⟨t, _, rfl⟩ := List.mem_map.1 (List.mem_of_getElem? hP)
        rfl
      · exact fun _ => hq
      · intro h; cases h
      · exact fun _ => rfl
      · exact fun _ => rfl
  · have hnd : s.procs.all (fun P => P.trees.all (fun t => t.leaves.all (fun e => !wants X P L t.cls e))) = false := by
      rw [← Bool.not_eq_true]
      exact fun h => hnw (hdone'.1 h)
    rw [hnd]
    have hw : ∃ P ∈ s.procs, ∃ x ∈ procSeq P.trees, wants X P L x.1 x.2 = true := by
      by_contra hcon
      apply hnw
      intro P hP x hx
      by_contra h
      exact hcon ⟨P, hP, x, hx, by simpa using h⟩
    have hlt := hsum hw
    have key : ∀ all, Good all → Ok all → leafSeq all = leafSeq (s.procs.map (newTrees X L)) → ∀ inc,
        Inv X Ok L seq0 ⟨withLayers X all, inc, false⟩ ∧ (total L ⟨withLayers X all, inc, false⟩ < total L s) := by
      intro all ha hoa hs inc
      refine ⟨⟨?_, ?_, ?_, ?_, ?_, ?_, ?_⟩, ?_⟩ <;> (try unfold total) <;> dsimp only <;> (try rw [map_mapIdx_ghosts])
      · exact ha
      · exact hoa
      · rw [hs]; exact hI.refines.trans href
      · rw [hs]; exact hlev
      · exact fun _ p P hP => withLayers_get hP
      · exact fun p P hP => Or.inr (withLayers_get hP)
      · intro h; cases h
      · rw [hs]; exact hlt
    cases repartition
    · obtain ⟨k1, k2⟩ := key _ hgood hoknew rfl _
      rw [withGhosts_eq hX hgood hoknew]
      exact ⟨_, rfl, k1, fun _ => k2, fun hq => absurd (hquiet.1 hq) hnw, fun h => by cases h⟩
    · obtain ⟨p0, p1, p2, p3⟩ := hX.parts _ hgood hoknew
      rw [p0]
      simp only [Option.bind_some]
      have hpg : Good (X.parts (s.procs.map (newTrees X L))) := ⟨p2, by rw [p1]; exact hgood.ordered⟩
      rw [withGhosts_eq hX hpg p3]
      obtain ⟨k1, k2⟩ := key _ hpg p3 p1 _
      exact ⟨_, rfl, k1, fun _ => k2, fun hq => absurd (hquiet.1 hq) hnw, fun h => by cases h⟩

/-! ### The loop -/

theorem foldl_max {α : Type} (f : α → Nat) : ∀ (l : List α) (m : Nat),
    m ≤ l.foldl (fun m x => max m (f x)) m ∧ (∀ x ∈ l, f x ≤ l.foldl (fun m x => max m (f x)) m) ∧
      (l.foldl (fun m x => max m (f x)) m = m ∨ ∃ x ∈ l, f x = l.foldl (fun m x => max m (f x)) m)
  | [], m => by simp
  | x :: l, m => by
    obtain ⟨h1, h2, h3⟩ := foldl_max f l (max m (f x))
    rw [List.foldl_cons]
    refine ⟨by omega, ?_, ?_⟩
    · intro y hy
      rcases List.mem_cons.1 hy with rfl | hy
      · omega
      · exact h2 y hy
    · rcases h3 with h3 | ⟨y, hy, h3⟩
      · rw [h3]
        rcases Nat.le_total m (f x) with h | h
        · exact Or.inr ⟨x, by simp, by omega⟩
        · exact Or.inl (by omega)
      · exact Or.inr ⟨y, by simp [hy], h3⟩

theorem computeMaxElementLevel_spec (procs : List (Process T)) :
    (∀ x ∈ leafSeq (allTrees procs), x.level ≤ computeMaxElementLevel procs) ∧
    (computeMaxElementLevel procs = 0 ∨ ∃ x ∈ leafSeq (allTrees procs), x.level = computeMaxElementLevel procs) := by
  have hloc : ∀ P : Process T, P.trees.foldl (fun (m : Nat) t => t.leaves.foldl (fun (m : Nat) e => max m ((T t.cls).level e)) m) 0 =
      (procSeq P.trees).foldl (fun m x => max m (BalanceSpec.Leaf.level x)) 0 := by
    intro P
    rw [procSeq, List.foldl_flatMap]
    simp only [List.foldl_map]
    rfl
  have hmap : (procs.map (fun P => P.trees.foldl (fun (m : Nat) t => t.leaves.foldl (fun (m : Nat) e => max m ((T t.cls).level e)) m) 0)).foldl max 0 =
      procs.foldl (fun m P => max m ((procSeq P.trees).foldl (fun m x => max m (BalanceSpec.Leaf.level x)) 0)) 0 := by
    rw [List.foldl_map]
    simp only [hloc]
  rw [computeMaxElementLevel, hmap]
  obtain ⟨_, h2, h3⟩ := foldl_max (fun P : Process T => (procSeq P.trees).foldl (fun m x => max m (BalanceSpec.Leaf.level x)) 0) procs 0
  have hmem : ∀ x, x ∈ leafSeq (allTrees procs) ↔ ∃ P ∈ procs, x ∈ procSeq P.trees := by
    intro x
    rw [leafSeq, List.flatMap_map, List.mem_flatMap]
  refine ⟨?_, ?_⟩
  · intro x hx
    obtain ⟨P, hP, hx⟩ := (hmem x).1 hx
    exact ((foldl_max BalanceSpec.Leaf.level (procSeq P.trees) 0).2.1 x hx).trans (h2 P hP)
  · rcases h3 with h3 | ⟨P, hP, h3⟩
    · exact Or.inl h3
    · rw [← h3]
      rcases (foldl_max BalanceSpec.Leaf.level (procSeq P.trees) 0).2.2 with h4 | ⟨x, hx, h4⟩
      · exact Or.inl h4
      · exact Or.inr ⟨x, (hmem x).2 ⟨P, hP, hx⟩, h4⟩

/-- The old forest, and the ghost layers it has are those that the library creates. -/
structure Input (X : Lib T) (procs : List (Process T)) : Prop where
  good : Good (allTrees procs)
  level : ∀ x ∈ leafSeq (allTrees procs), x.level ≤ X.maxlevel
  ghosts : ∀ (p : Nat) P, procs[p]? = some P → P.ghosts = none ∨ P.ghosts = X.ghost (allTrees procs) p

/-- The processes after the missing ghost layers are added. -/
def prepared (X : Lib T) (procs : List (Process T)) : List (Process T) :=
  procs.mapIdx (fun p P => if P.ghosts.isNone then { P with ghosts := some (X.ghosts (allTrees procs) p) } else P)

theorem prepared_trees (procs : List (Process T)) : allTrees (prepared X procs) = allTrees procs := by
  apply List.ext_getElem?
  intro i
  simp only [prepared, allTrees, List.getElem?_map, List.getElem?_mapIdx]
  cases procs[i]? with
  | none => rfl
  | some P => simp only [Option.map_some]; split <;> rfl

theorem Input.ghost {procs : List (Process T)} (h : Input X procs) (hX : X.Lawful In Ok) (ho : Ok (allTrees procs)) {p : Nat} {P : Process T}
    (hP : procs[p]? = some P) : P.ghosts = none ∨ P.ghosts = some (X.ghosts (allTrees procs) p) := by
  rcases h.ghosts p P hP with h' | h'
  · exact Or.inl h'
  · exact Or.inr (h'.trans (hX.ghosts _ h.good ho p P.trees (by simp [hP])).1)

theorem prepared_eq {procs : List (Process T)} (h : Input X procs) (hX : X.Lawful In Ok) (ho : Ok (allTrees procs)) :
    procs.zipIdx.mapM (fun P => do
      if P.1.ghosts.isNone then return { P.1 with ghosts := some (← X.ghost (allTrees procs) P.2) } else return P.1) =
      some (prepared X procs) := by
  rw [prepared, List.mapIdx_eq_zipIdx_map]
  apply mapM_some
  rintro ⟨P, p⟩ hP
  have hp : procs[p]? = some P := List.mem_zipIdx_iff_getElem?.1 hP
  dsimp only
  rw [(hX.ghosts _ h.good ho p P.trees (by simp [hp])).1]
  split <;> rfl

theorem prepared_ghosts {procs : List (Process T)} (h : Input X procs) (hX : X.Lawful In Ok) (ho : Ok (allTrees procs)) {p : Nat} {P : Process T} (hP : (prepared X procs)[p]? = some P) :
    P.ghosts = some (X.ghosts (allTrees procs) p) := by
  rw [prepared, List.getElem?_mapIdx] at hP
  obtain ⟨Q, hQ, rfl⟩ := Option.map_eq_some_iff.1 hP
  rcases h.ghost hX ho hQ with h | h <;> simp [h]

theorem inv_prepared {procs : List (Process T)} (h : Input X procs) (hX : X.Lawful In Ok) (ho : Ok (allTrees procs)) (inc : Bool) :
    Inv X Ok (computeMaxElementLevel procs) (leafSeq (allTrees procs)) ⟨prepared X procs, inc, false⟩ := by
  refine ⟨?_, ?_, ?_, ?_, ?_, ?_, ?_⟩ <;> dsimp only <;> (try rw [prepared_trees])
  · exact h.good
  · exact ho
  · exact Refines.refl _
  · exact (computeMaxElementLevel_spec procs).1
  · exact fun _ p P hP => prepared_ghosts h hX ho hP
  · exact fun p P hP => Or.inr (prepared_ghosts h hX ho hP)
  · intro h; cases h

theorem max_le {procs : List (Process T)} (h : Input X procs) : computeMaxElementLevel procs ≤ X.maxlevel := by
  rcases (computeMaxElementLevel_spec procs).2 with h0 | ⟨x, hx, hl⟩
  · omega
  · rw [← hl]; exact h.level x hx

/-- What is known when the loop ends. -/
theorem balance_quiet (hX : X.Lawful In Ok) {procs : List (Process T)} (h : Input X procs) (ho : Ok (allTrees procs)) (repartition incomplete : Bool) :
    ∃ all, balance X repartition incomplete procs = some all ∧ Good all ∧ Refines (leafSeq (allTrees procs)) (leafSeq all) ∧
      (∀ x ∈ leafSeq all, x.level ≤ computeMaxElementLevel procs) ∧ Quiet X all ∧
      (Quiet X (allTrees procs) → all = allTrees procs) ∧ Ok all := by
  have hL := max_le h
  have hpos := hX.pos
  have hstep : ∀ s : State T, (Inv X Ok (computeMaxElementLevel procs) (leafSeq (allTrees procs)) s ∧
      (Quiet X (allTrees procs) → allTrees s.procs = allTrees procs)) → (some (!s.done) : Option Bool) = some false ∨
      ((some (!s.done) : Option Bool) = some true ∧ ∃ s', round X repartition (computeMaxElementLevel procs) s = some s' ∧
        (Inv X Ok (computeMaxElementLevel procs) (leafSeq (allTrees procs)) s' ∧ (Quiet X (allTrees procs) → allTrees s'.procs = allTrees procs)) ∧
        (if s'.done then 0 else 1 + total (computeMaxElementLevel procs) s') <
          (if s.done then 0 else 1 + total (computeMaxElementLevel procs) s)) := by
    rintro s ⟨hI, hq⟩
    cases hd : s.done
    · right
      obtain ⟨s', h1, h2, h3, h4, h5⟩ := round_spec hX hL hI hd repartition
      refine ⟨rfl, s', h1, ⟨h2, ?_⟩, ?_⟩
      · intro hq0
        have h6 := hq hq0
        rw [h5 (h4 (by rw [h6]; exact hq0)), h6]
      · cases hd' : s'.done
        · have := h3 hd'
          simpa using this
        · simp
    · exact Or.inl rfl
  obtain ⟨s, hs, ⟨hI, hq⟩, hd⟩ := whileO_spec _ _ hstep ⟨prepared X procs, incomplete, false⟩
    ⟨inv_prepared h hX ho incomplete, fun _ => prepared_trees procs⟩
  have hd : s.done = true := by simpa using hd
  have hquiet := hI.finished hd
  refine ⟨allTrees s.procs, ?_, hI.good, hI.refines, hI.level, hquiet, hq, hI.ok⟩
  have htest : s.procs.mapM (fun P => isBalanced X P (computeMaxElementLevel procs : Nat)) = some (s.procs.map (fun _ => true)) := by
    apply mapM_some
    intro P hP
    obtain ⟨p, hp⟩ := List.mem_iff_getElem?.1 hP
    have h1 : (allTrees s.procs)[p]? = some P.trees := by simp [hp]
    refine hquiet.test hX hI.good hI.ok (by omega) ?_ h1 (hI.after p P hp)
    intro h0 x hx
    have := hI.level x hx
    omega
  have hprep := prepared_eq h hX ho
  simp only [balance]
  rw [show procs.map (fun P => P.trees) = allTrees procs from rfl, hprep]
  simp only [Option.bind_eq_bind, Option.bind_some, hs, htest]
  rw [assertO_true (by simp)]
  rfl

/-! ### The theorems -/

/-- **C37.** `t8_forest_balance` comes to an end, without an abort and without a failed assertion, on every forest (complete or not) on any
number of processes, with and without repartitioning. The result is a refinement of the old forest, no leaf of it is of a higher level than
all old leaves, and no leaf touches a leaf across a face whose level is higher by two or more. In the result `t8_forest_is_balanced` tells
that the forest is balanced, on every process, with and without ghost layer, when no leaf is of the maximum level. -/
theorem C37_balance (hX : X.Lawful In Ok) {procs : List (Process T)} (h : Input X procs) (ho : Ok (allTrees procs)) (repartition incomplete : Bool) :
    ∃ all, balance X repartition incomplete procs = some all ∧ Good all ∧ Ok all ∧ Refines (leafSeq (allTrees procs)) (leafSeq all) ∧
      (∀ x ∈ leafSeq all, ∃ y ∈ leafSeq (allTrees procs), x.level ≤ y.level) ∧
      Balanced X.neighbor In (fun g e => (X.faces g).numFaces e) (leafSeq all) ∧
      ((∀ x ∈ leafSeq all, x.level < X.maxlevel) → ∀ (p : Nat) trees gs, all[p]? = some trees → gs = none ∨ gs = X.ghost all p →
        isBalanced X ⟨trees, gs⟩ (-1) = some true) := by
  obtain ⟨all, h1, h2, h3, h4, h5, _, h6⟩ := balance_quiet hX h ho repartition incomplete
  have hL := max_le h
  refine ⟨all, h1, h2, h6, h3, ?_, h5.balanced hX h2 h6 (fun x hx => (h4 x hx).trans hL), ?_⟩
  · intro x hx
    rcases (computeMaxElementLevel_spec procs).2 with h0 | ⟨y, hy, hl⟩
    · obtain ⟨y, hy⟩ := List.exists_mem_of_ne_nil _ (fun h => List.ne_nil_of_mem hx (h3.nonempty h))
      exact ⟨y, hy, by have := h4 x hx; omega⟩
    · exact ⟨y, hy, by rw [hl]; exact h4 x hx⟩
  · intro hl p trees gs hp hgs
    rw [(hX.ghosts all h2 h6 p trees hp).1] at hgs
    exact h5.test hX h2 h6 (by omega) (fun _ => hl) hp hgs

/-- In a complete forest the test of the library sees the same as the condition on leaves. -/
theorem quiet_of_balanced (hX : X.Lawful In Ok) {all : List (List (LocalTree T))} (hg : Good all) (ho : Ok all)
    (hcomplete : ∀ g, inTree g (leafSeq all) = [] ∨ (T g).Tiles (T g).root (inTree g (leafSeq all)))
    (hb : Balanced X.neighbor In (fun g e => (X.faces g).numFaces e) (leafSeq all)) : Quiet X all := by
  intro p trees hp g e he hl hfin
  have hmem := procSeq_mem_leafSeq (List.mem_of_getElem? hp) he
  have hv := hg.valid hmem
  obtain ⟨f, hf, n, hn, h, hh, x, hk, hd, hne⟩ := hfin
  obtain ⟨v1, v2, i, hi, hilt, rfl⟩ := half_spec hX hv hl hf hn hh
  obtain ⟨w1, w2, w3, _⟩ := hX.neighbor g e f n hv (by omega) hf hn
  have hm := hX.maxlevel n.tree
  have hlt : (T n.tree).level n.elem < (T n.tree).maxLevel := by omega
  have hx := view_known hX hg ho hp (Or.inr rfl) hk
  have hxv := hg.valid hx
  have hF := hX.faces n.tree
  obtain ⟨k, hk⟩ := List.mem_iff_getElem?.1 hi
  have hin := hF.childFace _ _ k i w1 hlt w3 hk
  have hnf := (hF.bounds _ _ _ _ hin).1
  -- the first descendant of the half face neighbour at the face
  obtain ⟨d1, d2, ⟨fd, d3⟩, _⟩ := hF.firstDescendantFace _ _ (T n.tree).maxLevel v1 hnf ((T n.tree).level_le _ v1) (le_refl _)
  generalize hD : (X.faces n.tree).firstDescendantFace ((T n.tree).child n.elem i) ((X.faces n.tree).childFace n.elem n.face k) (T n.tree).maxLevel = D at d1 d2 d3
  have hDn := hF.trans _ _ _ _ _ _ d3 hin
  have hdc : (T n.tree).Desc n.elem ((T n.tree).child n.elem i) := Desc.child_self hlt hilt
  -- the leaf that covers it
  have ht : (T n.tree).Tiles (T n.tree).root (inTree n.tree (leafSeq all)) := by
    rcases hcomplete n.tree with h0 | h0
    · have := mem_inTree.2 hx
      rw [h0] at this
      cases this
    · exact h0
  have hDv := d1.valid v1
  obtain ⟨y, hy, hyd⟩ := ht.covers (T n.tree).valid_root ((T n.tree).desc_root hDv)
  have hys := mem_inTree.1 hy
  have hyv := hg.valid hys
  have hyD : (T n.tree).Desc y D := by
    rcases hyd with h | h
    · exact h
    · have := h.level_le hDv
      have := (T n.tree).level_le _ hyv
      rw [h.eq_of_level hDv (by omega)]
      exact Desc.refl
  have hdisj : (T n.tree).Desc y x → y = x := by
    intro hyx
    by_contra hneq
    obtain ⟨k1, hk1⟩ := List.mem_iff_getElem?.1 hy
    obtain ⟨k2, hk2⟩ := List.mem_iff_getElem?.1 (mem_inTree.2 hx)
    have ho := hg.ordered n.tree
    rcases Nat.lt_trichotomy k1 k2 with h | h | h
    · exact (T8.Leaf.Ordered.before ho hk1 hk2 h).not_desc.1 hyx
    · subst h
      exact hneq (Option.some.inj (hk1.symm.trans hk2))
    · exact (T8.Leaf.Ordered.before ho hk2 hk1 h).not_desc.2 hyx
  have hyh : (T n.tree).Desc ((T n.tree).child n.elem i) y ∧ y ≠ (T n.tree).child n.elem i := by
    have hno : ¬ (T n.tree).Desc y ((T n.tree).child n.elem i) := by
      intro h
      have h1 := hdisj (h.trans hd)
      subst h1
      have h2 := h.level_le hyv
      have h3 := hd.level_le v1
      exact hne (hd.eq_of_level v1 (by omega))
    refine ⟨?_, fun h => hno (by rw [h]; exact Desc.refl)⟩
    rcases Nat.le_total ((T n.tree).level y) ((T n.tree).level ((T n.tree).child n.elem i)) with h | h
    · exact absurd (desc_comparable hyv v1 hyD d1 h) hno
    · exact desc_comparable v1 hyv d1 hyD h
  obtain ⟨h', hin', _⟩ := hF.between _ _ y _ _ w1 (hdc.trans hyh.1) hyD hDn
  have := hb g e hmem f hf ⟨n.tree, y⟩ hys ⟨n, h', hn, rfl, hdc.trans hyh.1, hin'⟩
  have h2 := hyh.1.level_le v1
  have h3 : (T n.tree).level y ≠ (T n.tree).level ((T n.tree).child n.elem i) := by
    intro h3
    exact hyh.2 (hyh.1.eq_of_level v1 (by omega))
  simp only [BalanceSpec.Leaf.level] at this
  omega

/-- **C37.** A forest that is balanced is not changed. -/
theorem C37_unchanged (hX : X.Lawful In Ok) {procs : List (Process T)} (h : Input X procs) (ho : Ok (allTrees procs)) (repartition incomplete : Bool)
    (hcomplete : ∀ g, inTree g (leafSeq (allTrees procs)) = [] ∨ (T g).Tiles (T g).root (inTree g (leafSeq (allTrees procs))))
    (hb : Balanced X.neighbor In (fun g e => (X.faces g).numFaces e) (leafSeq (allTrees procs))) :
    balance X repartition incomplete procs = some (allTrees procs) := by
  obtain ⟨all, h1, _, _, _, _, h2, _⟩ := balance_quiet hX h ho repartition incomplete
  rw [h1, h2 (quiet_of_balanced hX h.good ho hcomplete hb)]

/-- **C37.** If no leaf is of the maximum level, then `t8_forest_is_balanced` decides, for a complete forest with ghost layers and for the
logical and over all processes, whether each leaf differs by at most one level from the leaves across its faces. -/
theorem C37_is_balanced (hX : X.Lawful In Ok) {all : List (List (LocalTree T))} (hg : Good all) (ho : Ok all)
    (hcomplete : ∀ g, inTree g (leafSeq all) = [] ∨ (T g).Tiles (T g).root (inTree g (leafSeq all)))
    (hl : ∀ x ∈ leafSeq all, x.level < X.maxlevel) :
    ∃ procs, withGhosts X all = some procs ∧ (∀ P ∈ procs, ∃ b, isBalanced X P (-1) = some b) ∧
      ((∀ P ∈ procs, isBalanced X P (-1) = some true) ↔ Balanced X.neighbor In (fun g e => (X.faces g).numFaces e) (leafSeq all)) := by
  have hview : ∀ P ∈ withLayers X all, ∃ (p : Nat) (trees : _), all[p]? = some trees ∧ P = ⟨trees, some (X.ghosts all p)⟩ := by
    intro P hP
    obtain ⟨p, hp⟩ := List.mem_iff_getElem?.1 hP
    rw [withLayers, List.getElem?_mapIdx] at hp
    obtain ⟨trees, hp', rfl⟩ := Option.map_eq_some_iff.1 hp
    exact ⟨p, trees, hp', rfl⟩
  refine ⟨_, withGhosts_eq hX hg ho, ?_, ?_, ?_⟩
  · intro P hP
    obtain ⟨p, trees, hp, rfl⟩ := hview P hP
    obtain ⟨b, hb, _⟩ := isBalanced_spec hX hg ho (existing := -1) (by omega) (fun _ => hl) hp (Or.inr rfl)
    exact ⟨b, hb⟩
  · intro h
    refine Quiet.balanced hX hg ho (fun x hx => (hl x hx).le) ?_
    intro p trees hp g e he hlt hf
    obtain ⟨b, b1, b2⟩ := isBalanced_spec hX hg ho (existing := -1) (by omega) (fun _ => hl) hp (Or.inr rfl)
    have hb := h ⟨trees, some (X.ghosts all p)⟩ (List.mem_of_getElem? (i := p) (by rw [withLayers, List.getElem?_mapIdx, hp]; rfl))
    rw [b1] at hb
    exact b2.1 (Option.some.inj hb) g e he (Or.inl (by omega)) hf
  · intro hb P hP
    obtain ⟨p, trees, hp, rfl⟩ := hview P hP
    exact (quiet_of_balanced hX hg ho hcomplete hb).test hX hg ho (by omega) (fun _ => hl) hp (Or.inr rfl)

/-- **C37.** A forest (complete or not) whose processes, with ghost layers, all pass the test of the library is not changed. The test is made
with `maxlevel_existing` as set by balance, or not set if no leaf is of the maximum level. -/
theorem C37_unchanged_test (hX : X.Lawful In Ok) {procs : List (Process T)} (h : Input X procs) (ho : Ok (allTrees procs)) (repartition incomplete : Bool) {existing : Int}
    (hex : existing = computeMaxElementLevel procs ∨ existing = -1 ∧ ∀ x ∈ leafSeq (allTrees procs), x.level < X.maxlevel)
    (ht : ∀ layers, withGhosts X (allTrees procs) = some layers → ∀ P ∈ layers, isBalanced X P existing = some true) :
    balance X repartition incomplete procs = some (allTrees procs) := by
  obtain ⟨all, h1, _, _, _, _, h2, _⟩ := balance_quiet hX h ho repartition incomplete
  rw [h1, h2]
  intro p trees hp g e he hlt hf
  have hL := max_le h
  have hpos := hX.pos
  have hbound := (computeMaxElementLevel_spec procs).1
  have hex1 : existing ≤ X.maxlevel := by rcases hex with h | ⟨h, _⟩ <;> omega
  have hex2 : existing ≤ 0 → ∀ x ∈ leafSeq (allTrees procs), x.level < X.maxlevel := by
    intro h0 x hx
    rcases hex with h | ⟨_, h⟩
    · have := hbound x hx
      omega
    · exact h x hx
  obtain ⟨b, b1, b2⟩ := isBalanced_spec hX h.good ho hex1 hex2 hp (Or.inr rfl)
  have hb := ht _ (withGhosts_eq hX h.good ho) ⟨trees, some (X.ghosts (allTrees procs) p)⟩
    (List.mem_of_getElem? (i := p) (by rw [withLayers, List.getElem?_mapIdx, hp]; rfl))
  rw [b1] at hb
  refine b2.1 (Option.some.inj hb) g e he ?_ hf
  rcases hex with h' | ⟨h', _⟩
  · have := finer_level hX h.good ho hp hL hbound (Or.inr rfl) he hlt hf
    exact Or.inr (by omega)
  · exact Or.inl (by omega)

theorem anyM_false {α : Type} {f : α → Option Bool} : ∀ {l : List α}, l.anyM f = some false → ∀ x ∈ l, f x = some false
  | [], _ => by simp
  | y :: l, h => by
    rw [List.anyM] at h
    cases hy : f y with
    | none => rw [hy] at h; cases h
    | some b =>
      rw [hy] at h
      cases b with
      | true => cases h
      | false =>
        intro x hx
        rcases List.mem_cons.1 hx with rfl | hx
        · exact hy
        · exact anyM_false h x hx

/-- **C37, finding.** In a forest that was not just created by balance `maxlevel_existing` is -1, and `t8_forest_is_balanced` asks for half
face neighbours of all leaves. It never tells that the forest is balanced, whether it is or not, if there is a leaf of the maximum level
with a neighbour across a face: the computation of the half face neighbours aborts. -/
theorem C37_is_balanced_aborts (hX : X.Lawful In Ok) {P : Process T} {t : LocalTree T} (ht : t ∈ P.trees) {e : (T t.cls).E} (he : e ∈ t.leaves)
    (hv : (T t.cls).Valid e) (hlev : (T t.cls).level e = X.maxlevel) {f : Nat} (hf : f < (X.faces t.cls).numFaces e) {n : Neighbor T}
    (hc : (X.faces t.cls).numFaceChildren e f ≠ 0) (hn : X.neighbor t.cls e f = some n) : isBalanced X P (-1) ≠ some true := by
  intro h
  rw [isBalanced] at h
  cases hr : P.trees.anyM (fun t => t.leaves.anyM (fun e => balanceAdapt X P (-1) t.cls e)) with
  | none => rw [hr] at h; cases h
  | some b =>
    rw [hr] at h
    cases b with
    | true => cases h
    | false =>
      have h1 := anyM_false (anyM_false hr t ht) e he
      rw [balanceAdapt, if_pos (Or.inl (by omega))] at h1
      have h2 := anyM_false h1 f (List.mem_range.2 hf)
      have h3 := (hX.neighbor _ e f n hv (by omega) hf hn).2.1
      have h4 : halfFaceNeighbors X t.cls e f ((X.faces t.cls).numFaceChildren e f) = none := by
        rw [halfFaceNeighbors, if_neg hc, hn]
        dsimp only
        rw [assertO, if_neg (by simp; omega)]
        rfl
      simp only [faceTest] at h2
      rw [h4] at h2
      cases h2

/-! ### A concrete case -/

namespace Example
open T8.Sample T8.Standalone

/-- Each tree is a quadrilateral. -/
abbrev TQ : Nat → RTree := fun _ => Q

/-- The leaves of all processes, by tree. -/
def byTree (all : List (List (LocalTree TQ))) : List (LocalTree TQ) :=
  ((leafSeq all).map (fun x => x.1)).dedup.map (fun g => ⟨g, g, inTree g (leafSeq all)⟩)

/-- Quadrilaterals that are not connected, with ghost layers that have all leaves, and a partition that leaves everything as it is. -/
def lib (maxlevel : Nat) : Lib TQ where
  scheme _ := Cls.scheme .quad
  faces _ := Cls.faceScheme .quad
  maxChildren _ := 4
  maxlevel := maxlevel
  neighbor g e f := (faceNeighborInside (d := 2) (Cls.maxLevel .quad) e f).map (fun n => ⟨g, n.1, n.2⟩)
  ghost all _ := some (byTree all)
  partition all := some all

theorem mem_byTree {all : List (List (LocalTree TQ))} {x : BalanceSpec.Leaf TQ} : x ∈ procSeq (byTree all) ↔ x ∈ leafSeq all := by
  rw [procSeq, List.mem_flatMap]
  constructor
  · rintro ⟨t, ht, hx⟩
    obtain ⟨g, _, rfl⟩ := List.mem_map.1 ht
    obtain ⟨e, he, rfl⟩ := List.mem_map.1 hx
    exact mem_inTree.1 he
  · intro h
    refine ⟨_, List.mem_map_of_mem (List.mem_dedup.2 (List.mem_map_of_mem h)), ?_⟩
    exact List.mem_map.2 ⟨x.2, mem_inTree.2 h, rfl⟩

theorem lawful {m : Nat} (h0 : 0 < m) (hm : m ≤ Q.maxLevel) : (lib m).Lawful (fun _ => Cls.InFace .quad) (fun _ => True) where
  scheme _ := Cls.scheme_lawful .quad
  faces _ := Cls.faceScheme_lawful .quad
  maxlevel _ := hm
  pos := h0
  neighbor g e f n he _ hf hn := by
    obtain ⟨⟨n1, n2⟩, hn', rfl⟩ := Option.map_eq_some_iff.1 hn
    obtain ⟨h1, h2, _, h4, _⟩ := C10_standalone_mutual .quad e he f hf n1 n2 hn'
    exact ⟨h1, h2, h4, rfl⟩
  ghost all hg _ p trees hp := by
    refine ⟨_, rfl, ⟨?_, ?_⟩, ?_, fun x hx => mem_byTree.1 hx, fun g e _ f _ x hx _ => Or.inr (mem_byTree.2 hx)⟩
    · show ((byTree all).map (fun t => t.cls)).Nodup
      rw [byTree, List.map_map]
      exact (List.map_id _).symm ▸ List.nodup_dedup _
    · intro t ht
      obtain ⟨g, hg', rfl⟩ := List.mem_map.1 ht
      obtain ⟨x, hx, rfl⟩ := List.mem_map.1 (List.mem_dedup.1 hg')
      exact List.ne_nil_of_mem (mem_inTree.2 hx)
    · intro t ht
      obtain ⟨g, hg', rfl⟩ := List.mem_map.1 ht
      exact hg.ordered g
  partition all hg _ := ⟨_, rfl, rfl, hg.stored, trivial⟩
  refine _ _ _ _ _ _ _ _ := trivial

/-- Child `i` of child 0 of child 1 of the root. -/
def dd (i : Nat) : Q.E := Q.child (d 0) i

/-- Leaves of level 1 to 3. -/
def fine : List Q.E := [c 0, dd 0, dd 1, dd 2, dd 3, d 1, d 2, d 3, c 2, c 3]

theorem tiles_d0 : Q.Tiles (d 0) [dd 0, dd 1, dd 2, dd 3] :=
  Tiles.node (T := Q) (d 0) (fun i => [dd i]) (by decide) (fun i _ => Tiles.leaf (T := Q) (dd i))

theorem tiles_fine : Q.Tiles Q.root fine := by
  have h1 : Q.Tiles (c 1) ([dd 0, dd 1, dd 2, dd 3] ++ [d 1, d 2, d 3]) := by
    refine Tiles.node (T := Q) (c 1) (fun i => if i = 0 then [dd 0, dd 1, dd 2, dd 3] else [d i]) (lt_max (by decide)) ?_
    intro i _
    by_cases h : i = 0
    · subst h
      exact tiles_d0
    · simp only [if_neg h]
      exact Tiles.leaf (T := Q) (d i)
  refine Tiles.node (T := Q) Q.root (fun i => if i = 1 then [dd 0, dd 1, dd 2, dd 3] ++ [d 1, d 2, d 3] else [c i]) (by decide) ?_
  intro i _
  by_cases h : i = 1
  · subst h
    exact h1
  · simp only [if_neg h]
    exact Tiles.leaf (T := Q) (c i)

/-- Two processes, the first with a ghost layer and the second without. -/
def procs : List (Process TQ) :=
  [⟨[⟨0, 0, [c 0, dd 0, dd 1, dd 2]⟩], some (byTree [[⟨0, 0, [c 0, dd 0, dd 1, dd 2]⟩], [⟨0, 0, [dd 3, d 1, d 2, d 3, c 2, c 3]⟩]])⟩,
   ⟨[⟨0, 0, [dd 3, d 1, d 2, d 3, c 2, c 3]⟩], none⟩]

theorem good : Good (allTrees procs) := by
  refine ⟨?_, ?_⟩
  · intro trees ht
    simp only [procs, allTrees, List.map_cons, List.map_nil, List.mem_cons, List.not_mem_nil, or_false] at ht
    rcases ht with rfl | rfl <;> exact ⟨by simp, by simp⟩
  · intro g
    by_cases hg : g = 0
    · subst hg
      exact tiles_fine.ordered Q.valid_root
    · have : inTree g (leafSeq (allTrees procs)) = [] := by
        simp [procs, allTrees, leafSeq, procSeq, inTree, Ne.symm hg]
      rw [this]
      exact ⟨by simp, List.Pairwise.nil⟩

theorem input {m : Nat} (hm : 3 ≤ m) : Input (lib m) procs := by
  refine ⟨good, ?_, ?_⟩
  · have : ∀ x ∈ leafSeq (allTrees procs), x.level ≤ 3 := by decide +kernel
    exact fun x hx => (this x hx).trans hm
  · intro p P hP
    match p with
    | 0 => obtain rfl := Option.some.inj hP; exact Or.inr rfl
    | 1 => obtain rfl := Option.some.inj hP; exact Or.inl rfl
    | p + 2 => cases hP

theorem neighbor_c0 (m g : Nat) : (lib m).neighbor g (c 0) 1 = some ⟨g, c 1, 0⟩ := by
  have h : @faceNeighborInside 2 (Cls.maxLevel .quad) (c 0) 1 = (some (c 1, 0) : Option (Elem 2 × Nat)) := by decide +kernel
  exact congrArg (Option.map (fun n => (⟨g, n.1, n.2⟩ : Neighbor TQ))) h

/-- The mesh is not balanced: child 0 of the root touches elements of level 3. -/
theorem not_balanced (m : Nat) :
    ¬ Balanced (lib m).neighbor (fun _ => Cls.InFace .quad) (fun g e => ((lib m).faces g).numFaces e) (leafSeq (allTrees procs)) := by
  intro h
  have hF := Cls.faceScheme_lawful .quad
  have h1 : Cls.InFace .quad (d 0) 0 (c 1) 0 := hF.childFace (c 1) 0 0 0 (valid_c (by decide)) (lt_max (by decide)) (by decide) (by decide)
  have h2 : Cls.InFace .quad (dd 0) 0 (d 0) 0 := hF.childFace (d 0) 0 0 0 (valid_d (by decide)) (by decide) (by decide) (by decide)
  have := h 0 (c 0) (by simp [procs, allTrees, leafSeq, procSeq]) 1 (show 1 < 4 by decide) ⟨0, dd 0⟩ (by simp [procs, allTrees, leafSeq, procSeq])
    ⟨⟨0, c 1, 0⟩, 0, neighbor_c0 m 0, rfl,
      (Desc.child_self (T := Q) (lt_max (by decide)) (by decide)).trans (Desc.child_self (T := Q) (by decide) (by decide)), hF.trans _ _ _ _ _ _ h2 h1⟩
  revert this
  decide

/-- The hypotheses of `C37_balance` hold for the mesh, which is not balanced, with levels up to that of the finest leaves. -/
example : ∃ all, balance (lib 3) true false procs = some all ∧ all ≠ allTrees procs := by
  obtain ⟨all, h1, _, _, _, _, h2, _⟩ := C37_balance (lawful (m := 3) (by decide) (by decide)) (input (le_refl 3)) trivial true false
  exact ⟨all, h1, fun h => not_balanced 3 (h ▸ h2)⟩

/-- The hypotheses of `C37_is_balanced` hold for the mesh: a process tells that it is not balanced. -/
example : ∃ layers, withGhosts (lib 5) (allTrees procs) = some layers ∧ ∃ P ∈ layers, isBalanced (lib 5) P (-1) = some false := by
  have hc : ∀ g, inTree g (leafSeq (allTrees procs)) = [] ∨ Q.Tiles Q.root (inTree g (leafSeq (allTrees procs))) := by
    intro g
    by_cases hg : g = 0
    · subst hg
      exact Or.inr tiles_fine
    · left
      simp [procs, allTrees, leafSeq, procSeq, inTree, Ne.symm hg]
  have hl : ∀ x ∈ leafSeq (allTrees procs), x.level < 5 := by decide +kernel
  obtain ⟨layers, h0, h1, h2⟩ := C37_is_balanced (lawful (m := 5) (by decide) (by decide)) good trivial hc hl
  refine ⟨layers, h0, ?_⟩
  by_contra hcon
  apply not_balanced 5
  apply h2.1
  intro P hP
  obtain ⟨b, hb⟩ := h1 P hP
  cases b with
  | true => exact hb
  | false => exact absurd ⟨P, hP, hb⟩ hcon

/-- The finding for one tree of four leaves that are of the maximum level 1. -/
example : isBalanced (lib 1) ⟨[⟨0, 0, [c 0, c 1, c 2, c 3]⟩], none⟩ (-1) ≠ some true :=
  C37_is_balanced_aborts (lawful (m := 1) (by decide) (by decide)) (t := ⟨0, 0, [c 0, c 1, c 2, c 3]⟩) (by simp) (e := c 0) (by simp)
    (valid_c (by decide)) (by decide) (f := 1) (by decide) (by decide) (n := ⟨0, c 1, 0⟩) (neighbor_c0 1 0)

end Example

end T8.Balance
