/-
The reference count invariant is preserved by `t8_forest_commit`.
-/
import Verif.Lemmas.RefCount

namespace T8.RefCount

/-- What an operation on the forest `f` leaves unchanged for all other objects. -/
structure FrX (f : Nat) (h h' : Heap) : Prop where
  next : h.next ≤ h'.next
  old : ∀ p < h.next, p ≠ f → (h'.obj p).isForest = (h.obj p).isForest ∧ (h'.obj p).committed = (h.obj p).committed ∧
    (h'.obj p).adapt = (h.obj p).adapt ∧ (h'.obj p).partition = (h.obj p).partition ∧
    (h'.obj p).balance = (h.obj p).balance ∧
    ((h'.obj p).freed = false → (h.obj p).freed = false ∧ (h'.obj p).setFrom = (h.obj p).setFrom ∧
      (h'.obj p).cmesh = (h.obj p).cmesh ∧ (h'.obj p).scheme = (h.obj p).scheme)
  new : ∀ p, p ≠ f → h.next ≤ p → p < h'.next → (h'.obj p).setFrom = none ∧ (h'.obj p).isForest = true
  freedFrom : ∀ p < h.next, p ≠ f → (h'.obj p).freed = true →
    (h'.obj p).setFrom = none ∨ (h'.obj p).setFrom = (h.obj p).setFrom

theorem Fr.x {h h' : Heap} (a : Fr h h') (f : Nat) : FrX f h h' :=
  ⟨a.next, fun p hp _ => a.old p hp, fun p _ => a.new p, fun p hp _ => a.freedFrom p hp⟩

theorem FrX.trans {f : Nat} {h1 h2 h3 : Heap} (a : FrX f h1 h2) (b : FrX f h2 h3) : FrX f h1 h3 := by
  refine ⟨a.next.trans b.next, ?_, ?_, ?_⟩
  · intro p hp hne
    obtain ⟨a1, a2, a3, a4, a5, a6⟩ := a.old p hp hne
    obtain ⟨b1, b2, b3, b4, b5, b6⟩ := b.old p (lt_of_lt_of_le hp a.next) hne
    refine ⟨b1.trans a1, b2.trans a2, b3.trans a3, b4.trans a4, b5.trans a5, fun hf => ?_⟩
    obtain ⟨c1, c2, c3, c4⟩ := b6 hf
    obtain ⟨d1, d2, d3, d4⟩ := a6 c1
    exact ⟨d1, c2.trans d2, c3.trans d3, c4.trans d4⟩
  · intro p hne h1p h3p
    by_cases hp : p < h2.next
    · obtain ⟨this, hk⟩ := a.new p hne h1p hp
      refine ⟨?_, (b.old p hp hne).1.trans hk⟩
      cases hf : (h3.obj p).freed with
      | false =>
        have := ((b.old p hp hne).2.2.2.2.2 hf).2.1
        simp_all
      | true =>
        rcases b.freedFrom p hp hne hf with h | h
        · exact h
        · simp_all
    · exact b.new p hne (by omega) h3p
  · intro p hp hne hf
    have hp2 := lt_of_lt_of_le hp a.next
    rcases b.freedFrom p hp2 hne hf with h | h
    · exact Or.inl h
    · cases hf2 : (h2.obj p).freed with
      | true =>
        rcases a.freedFrom p hp hne hf2 with h' | h'
        · exact Or.inl (h.trans h')
        · exact Or.inr (h.trans h')
      | false => exact Or.inr (h.trans ((a.old p hp hne).2.2.2.2.2 hf2).2.1)

theorem FrX.set (h : Heap) (f : Nat) (o : Obj) : FrX f h (h.set f o) := by
  refine ⟨le_refl _, ?_, fun p _ h1 h2 => by simp only [Heap.set] at h2; omega, ?_⟩
  · intro p _ hne
    rw [show (h.set f o).obj p = h.obj p by simp [Heap.set, hne]]
    exact ⟨rfl, rfl, rfl, rfl, rfl, fun hf => ⟨hf, rfl, rfl, rfl⟩⟩
  · intro p _ hne _
    simp only [Heap.set, hne, if_false]; exact Or.inr trivial

/-- What is known of a forest that is being committed. -/
structure Building (h : Heap) (f : Nat) (sf cm sc : Option Nat) (a p b : Bool) : Prop where
  isForest : (h.obj f).isForest = true
  committed : (h.obj f).committed = false
  from_ : (h.obj f).setFrom = sf
  cmesh : (h.obj f).cmesh = cm
  scheme : (h.obj f).scheme = sc
  adapt : (h.obj f).adapt = a
  partition : (h.obj f).partition = p
  balance : (h.obj f).balance = b

theorem Building.fr {h h' : Heap} {f : Nat} {sf cm sc : Option Nat} {a p b : Bool} (hb : Building h f sf cm sc a p b)
    (hfr : Fr h h') (hf : f < h.next) (hal : (h'.obj f).freed = false) : Building h' f sf cm sc a p b := by
  obtain ⟨a1, a2, a3, a4, a5, a6⟩ := hfr.old f hf
  obtain ⟨b1, b2, b3, b4⟩ := a6 hal
  exact ⟨a1.trans hb.isForest, a2.trans hb.committed, b2.trans hb.from_, b3.trans hb.cmesh, b4.trans hb.scheme,
    a3.trans hb.adapt, a4.trans hb.partition, a5.trans hb.balance⟩

/-- A committed forest. -/
def Com (h : Heap) (s : Nat) : Prop := (h.obj s).isForest = true ∧ (h.obj s).committed = true

theorem Com.fr {h h' : Heap} {s : Nat} (hc : Com h s) (hfr : Fr h h') (hs : s < h.next) : Com h' s :=
  ⟨(hfr.old s hs).1.trans hc.1, (hfr.old s hs).2.1.trans hc.2⟩

theorem Com.frx {h h' : Heap} {s f : Nat} (hc : Com h s) (hfr : FrX f h h') (hs : s < h.next) (hne : s ≠ f) : Com h' s :=
  ⟨(hfr.old s hs hne).1.trans hc.1, (hfr.old s hs hne).2.1.trans hc.2⟩

/-- Change of the pointer `set_from` of a forest that is being built. -/
theorem Inv.putFrom {h : Heap} {H : Nat → Nat} (hi : Inv h H []) {f : Nat} (hf : 0 < H f)
    {sf cm sc : Option Nat} {a p b : Bool} (hb : Building h f sf cm sc a p b) (x : Option Nat)
    (hx : ∀ s, x = some s → 0 < H s ∧ Com h s) :
    ∃ h', putFrom h f x = some h' ∧ Inv h' (fun a => H a - ind x a + ind sf a) [] ∧ FrX f h h' ∧ h'.next = h.next ∧
      Building h' f x cm sc a p b ∧ (h'.obj f).freed = false ∧ H f - ind x f = H f := by
  obtain ⟨h1, h2, h3, h4⟩ := hi.alive hf
  have ht := hi.typed f h1
  rw [RefCount.putFrom, hi.read hf]
  have hle : ∀ a, ind x a ≤ H a := by
    intro a
    unfold ind
    split_ifs with e
    · exact (hx a e).1
    · omega
  have hff : ind x f = 0 := by
    unfold ind
    rw [if_neg]
    intro e
    have := (hx f e).2.2
    rw [hb.committed] at this; simp at this
  refine ⟨_, rfl, ?_, FrX.set _ _ _, rfl, ?_, ?_, ?_⟩
  · refine hi.set h1 h2 _ h4 h3 rfl id ⟨?_, ht.cmesh, ht.scheme, ht.committed, ?_, ?_⟩ ?_ ?_
    · intro s hs
      obtain ⟨x1, x2⟩ := hx s hs
      exact ⟨(hi.alive x1).1, x2.1, x2.2, hb.isForest, hb.committed⟩
    · exact ht.ready
    · intro e; rw [h3] at e; simp at e
    · intro a
      have := hle a
      simp only [own, hb.from_]
      omega
    · intro a ha
      by_contra hn
      have e1 : ¬ 0 < H a := fun e => hn (hi.bound a e)
      have e2 : ind sf a = 0 := by
        unfold ind
        rw [if_neg]
        intro e
        exact hn (ht.from_ a (hb.from_.trans e)).1
      omega
  · exact ⟨by simpa [Heap.set] using hb.isForest, by simpa [Heap.set] using hb.committed, by simp [Heap.set],
      by simpa [Heap.set] using hb.cmesh, by simpa [Heap.set] using hb.scheme, by simpa [Heap.set] using hb.adapt,
      by simpa [Heap.set] using hb.partition, by simpa [Heap.set] using hb.balance⟩
  · simpa [Heap.set] using h3
  · omega

theorem Inv.takeOver {h : Heap} {H : Nat → Nat} (hi : Inv h H []) {f s : Nat} (hf : 0 < H f)
    {a p b : Bool} (hb : Building h f (some s) none none a p b) :
    ∃ h' c sch, takeOver h f = some h' ∧ Inv h' H [] ∧ FrX f h h' ∧ h'.next = h.next ∧
      Building h' f (some s) (some c) (some sch) a p b ∧ (h.obj s).cmesh = some c ∧ (h.obj s).scheme = some sch := by
  obtain ⟨h1, h2, h3, h4⟩ := hi.alive hf
  have ht := hi.typed f h1
  obtain ⟨s1, s2, s3, -, -⟩ := ht.from_ s hb.from_
  have hrs : 0 < (h.obj s).rc := hi.rc_of_owned h1 s1 (by simp [own, ind, hb.from_]; try omega)
  have hsf : (h.obj s).freed = false := by
    cases e : (h.obj s).freed with
    | false => rfl
    | true => have := (hi.free s s1 (by simp)).1 e; omega
  have hts := hi.typed s s1
  obtain ⟨hcm, hsc⟩ := hts.ready s3 hsf
  obtain ⟨c, hc⟩ := Option.ne_none_iff_exists'.1 hcm
  obtain ⟨sch, hsch⟩ := Option.ne_none_iff_exists'.1 hsc
  obtain ⟨c1, c2, c3⟩ := hts.cmesh c hc
  obtain ⟨k1, k2, k3⟩ := hts.scheme sch hsch
  rw [RefCount.takeOver, hi.read hf]
  simp only [Option.bind_eq_bind, Option.bind_some]
  rw [show assertO ((h.obj f).committed = false ∧ (h.obj f).cmesh = none ∧ (h.obj f).scheme = none) = some () from
    assertO_true ⟨hb.committed, hb.cmesh, hb.scheme⟩, hb.from_]
  simp only [Option.bind_some]
  rw [read_some s1 hsf]
  simp only [Option.bind_some]
  rw [show assertO ((h.obj s).committed = true) = some () from assertO_true s3, hc, hsch]
  simp only [Option.bind_some]
  obtain ⟨h', e1, hi1, fr1, n1⟩ := hi.ref c1 (hi.rc_of_owned s1 c1 (by simp [own, ind, hc]; try omega))
  rw [e1]
  simp only [Option.bind_some]
  have hH1 : 0 < inc H c f := by simp only [inc]; split_ifs <;> omega
  have hrc' : 0 < (h'.obj sch).rc := by
    have hsf' : (h'.obj s).freed = false := by
      have := hi1.rc_of_owned (p := f) (c := s) (by omega) (by omega) (by
        have := ((fr1.old f h1).2.2.2.2.2 (hi1.alive hH1).2.2.1).2.1
        simp [own, ind, this, hb.from_]; try omega)
      cases e : (h'.obj s).freed with
      | false => rfl
      | true => have := (hi1.free s (by omega) (by simp)).1 e; omega
    apply hi1.rc_of_owned (p := s) (by omega) (by omega)
    have := ((fr1.old s s1).2.2.2.2.2 hsf').2.2.2
    simp [own, ind, this, hsch]
  obtain ⟨h'', e2, hi2, fr2, n2⟩ := hi1.ref (x := sch) (by omega) hrc'
  rw [e2]
  simp only [Option.bind_some]
  have hH2 : 0 < inc (inc H c) sch f := by simp only [inc]; split_ifs <;> omega
  obtain ⟨f1, f2, f3, f4⟩ := hi2.alive hH2
  rw [hi2.read hH2]
  simp only [Option.bind_some]
  have hb1 := hb.fr fr1 h1 (hi1.alive hH1).2.2.1
  have hb2 := hb1.fr fr2 (by omega) f3
  have ht2 := hi2.typed f f1
  refine ⟨_, c, sch, rfl, ?_, (((fr1.trans fr2).x f).trans (FrX.set _ _ _)), ?_, ?_, rfl, rfl⟩
  · refine hi2.set f1 f2 _ f4 f3 rfl id ⟨ht2.from_, ?_, ?_, ht2.committed, ?_, ?_⟩ ?_ ?_
    · intro c' hc'
      have : c = c' := Option.some.inj hc'
      subst this
      exact ⟨by omega, by rw [(fr2.old c (by omega)).1, (fr1.old c c1).1, c2], hb2.isForest⟩
    · intro c' hc'
      have : sch = c' := Option.some.inj hc'
      subst this
      exact ⟨by omega, by rw [(fr2.old sch (by omega)).1, (fr1.old sch k1).1, k2], hb2.isForest⟩
    · intro _ _; simp
    · intro e; rw [f3] at e; simp at e
    · intro a
      simp only [own, hb2.cmesh, hb2.scheme, ind_none]
      simp only [inc, ind, Option.some.injEq, eq_comm (a := a)]
      split_ifs <;> omega
    · intro a ha
      have := hi.bound a ha
      omega
  · show h''.next = h.next; omega
  · exact ⟨by simpa [Heap.set] using hb2.isForest, by simpa [Heap.set] using hb2.committed,
      by simpa [Heap.set] using hb2.from_, by simp [Heap.set], by simp [Heap.set], by simpa [Heap.set] using hb2.adapt,
      by simpa [Heap.set] using hb2.partition, by simpa [Heap.set] using hb2.balance⟩

theorem Inv.dropFrom {h : Heap} {H : Nat → Nat} (hi : Inv h H []) {f s : Nat} (hf : 0 < H f)
    {cm sc : Option Nat} {a p b : Bool} (hb : Building h f (some s) cm sc a p b) :
    ∃ h', dropFrom h f = some h' ∧ Inv h' H [] ∧ FrX f h h' ∧ h'.next = h.next ∧ Building h' f none cm sc a p b := by
  obtain ⟨h1, h2, h3, h4⟩ := hi.alive hf
  rw [RefCount.dropFrom, hi.read hf]
  simp only [Option.bind_eq_bind, Option.bind_some, hb.from_]
  obtain ⟨h', e1, hi1, fr1, n1, hb1, -, -⟩ := hi.putFrom hf hb none (by simp)
  rw [e1]
  simp only [Option.bind_some]
  have hi1' : Inv h' (inc H s) [] := hi1.congr (fun a => by
    simp only [inc, ind, Option.some.injEq, eq_comm (a := a)]; split_ifs <;> simp_all)
  obtain ⟨h'', e2, hi2, fr2, n2⟩ := hi1'.unref (x := s) (by simp [inc])
  rw [dec_inc] at hi2
  exact ⟨h'', e2, hi2, fr1.trans (fr2.x f), by omega, hb1.fr fr2 (by omega) (hi2.alive hf).2.2.1⟩

theorem Inv.finish {h : Heap} {H : Nat → Nat} (hi : Inv h H []) {f s F : Nat} (hf : 0 < H f)
    {c sch : Nat} {a p b : Bool} (hb : Building h f (some s) (some c) (some sch) a p b)
    (hF : F ≠ s → 0 < H F ∧ Com h F) :
    ∃ h', finish h f F = some h' ∧ Inv h' (if F = s then H else dec H F) [] ∧ FrX f h h' ∧ h'.next = h.next ∧ Com h' f ∧
      (h'.obj f).setFrom = none ∧ (h'.obj f).cmesh = some c ∧ (h'.obj f).scheme = some sch ∧
      (h'.obj f).adapt = false ∧ (h'.obj f).partition = false ∧ (h'.obj f).balance = false := by
  have key : ∀ (h1 : Heap) (H1 : Nat → Nat) (s : Nat), Inv h1 H1 [] → 0 < H1 f → FrX f h h1 → h1.next = h.next →
      Building h1 f (some s) (some c) (some sch) a p b → ∃ h', (do
        let h ← RefCount.dropFrom h1 f
        let o ← RefCount.read h f
        some (h.set f { o with setFrom := none, committed := true, adapt := false, partition := false, balance := false })) =
          some h' ∧ Inv h' H1 [] ∧ FrX f h h' ∧ h'.next = h.next ∧ Com h' f ∧
      (h'.obj f).setFrom = none ∧ (h'.obj f).cmesh = some c ∧ (h'.obj f).scheme = some sch ∧
      (h'.obj f).adapt = false ∧ (h'.obj f).partition = false ∧ (h'.obj f).balance = false := by
    intro h1 H1 s hi1 hf1 fr1 n1 hb1
    obtain ⟨h2, e2, hi2, fr2, n2, hb2⟩ := hi1.dropFrom hf1 hb1
    obtain ⟨f1, f2, f3, f4⟩ := hi2.alive hf1
    have ht := hi2.typed f f1
    rw [e2]
    simp only [Option.bind_eq_bind, Option.bind_some]
    rw [hi2.read hf1]
    refine ⟨_, rfl, ?_, (fr1.trans fr2).trans (FrX.set _ _ _), ?_, ⟨by simpa [Heap.set] using hb2.isForest,
      by simp [Heap.set]⟩, by simp [Heap.set], by simpa [Heap.set] using hb2.cmesh, by simpa [Heap.set] using hb2.scheme,
      by simp [Heap.set], by simp [Heap.set], by simp [Heap.set]⟩
    · refine hi2.set f1 f2 _ f4 f3 rfl (by simp) ⟨by simp, ht.cmesh, ht.scheme, fun _ => hb2.isForest, ?_, ?_⟩ ?_
        hi2.bound
      · intro _ _; simp [hb2.cmesh, hb2.scheme]
      · intro e; rw [f3] at e; simp at e
      · intro a; simp only [own, hb2.from_, ind_none]
    · show h2.next = h.next; omega
  rw [RefCount.finish, hi.read hf]
  simp only [Option.bind_eq_bind, Option.bind_some, hb.from_]
  by_cases hs : F = s
  · rw [if_neg (by simp [hs]), if_pos hs]
    exact key h H s hi hf ((Fr.refl h).x f) rfl hb
  · rw [if_pos hs, if_neg hs]
    obtain ⟨hF1, hF2⟩ := hF hs
    obtain ⟨h2, e2, hi2, fr2, n2, hb2⟩ := hi.dropFrom hf hb
    rw [e2]
    simp only [Option.bind_some]
    have hFf : F ≠ f := by
      intro e; subst e
      have := hF2.2; rw [hb.committed] at this; simp at this
    obtain ⟨h3, e3, hi3, fr3, n3, hb3, -, -⟩ := hi2.putFrom hf hb2 (some F) (by
      intro s' hs'
      have : F = s' := Option.some.inj hs'
      subst this
      exact ⟨hF1, hF2.frx fr2 (hi.bound _ hF1) hFf⟩)
    rw [e3]
    simp only [Option.bind_some]
    have hi3' : Inv h3 (dec H F) [] := hi3.congr (fun a => by
      simp only [dec, ind, Option.some.injEq, eq_comm (a := a)]; split_ifs <;> simp_all)
    exact key h3 (dec H F) F hi3' (by simp only [dec]; rw [if_neg (Ne.symm hFf)]; exact hf) (fr2.trans fr3) (by omega) hb3

theorem Inv.intermediate {h : Heap} {H : Nat → Nat} (hi : Inv h H []) {s : Nat} (hs : 0 < H s) (hc : Com h s) :
    ∃ h', intermediate h s = some (h', h.next) ∧ Inv h' (inc (dec H s) h.next) [] ∧ Fr h h' ∧ Com h' h.next := by
  have hsn := hi.bound s hs
  have hne : s ≠ h.next := by omega
  obtain ⟨hi1, fr1⟩ := hi.alloc true
  replace fr1 := fr1 rfl
  have hH1 : 0 < inc H h.next h.next := by simp [inc]
  have hb1 : Building (RefCount.alloc h true).1 h.next none none none false false false := by
    constructor <;> simp [RefCount.alloc]
  rw [RefCount.intermediate]
  simp only [init]
  rw [show (RefCount.alloc h true).2 = h.next from rfl]
  have hn1 : (RefCount.alloc h true).1.next = h.next + 1 := rfl
  obtain ⟨h2, e2, hi2, fr2, n2, hb2, -, -⟩ := hi1.putFrom hH1 hb1 (some s) (by
    intro s' hs'
    have : s = s' := Option.some.inj hs'
    subst this
    exact ⟨by simp only [inc]; rw [if_neg hne]; exact hs, hc.fr fr1 hsn⟩)
  rw [e2]
  simp only [Option.bind_eq_bind, Option.bind_some]
  have hi2' : Inv h2 (inc (dec H s) h.next) [] := hi2.congr (fun a => by
    simp only [inc, dec, ind, Option.some.injEq, eq_comm (a := a)]
    split_ifs <;> first | omega | simp_all)
  have hH2 : 0 < inc (dec H s) h.next h.next := by simp [inc]
  obtain ⟨h3, c, sch, e3, hi3, fr3, n3, hb3, -, -⟩ := hi2'.takeOver hH2 hb2
  rw [e3]
  simp only [Option.bind_some]
  obtain ⟨h4, e4, hi4, fr4, n4, hc4, hf4, -, -, -⟩ := hi3.finish (F := s) hH2 hb3 (by simp)
  rw [e4]
  refine ⟨h4, rfl, by simpa using hi4, ?_, hc4⟩
  have hfr := (((fr1.x h.next).trans fr2).trans fr3).trans fr4
  refine ⟨by omega, ?_, ?_, ?_⟩
  · intro p hp; exact hfr.old p hp (by omega)
  · intro p h1 h2
    rcases eq_or_ne p h.next with rfl | hne
    · exact ⟨hf4, hc4.1⟩
    · exact hfr.new p hne h1 h2
  · intro p hp; exact hfr.freedFrom p hp (by omega)

theorem Inv.balanceRounds (rounds : List Bool) : ∀ {h : Heap} {H : Nat → Nat} (_ : Inv h H []) {s : Nat} (_ : 0 < H s)
    (_ : Com h s), ∃ h' t, balanceRounds h s rounds = some (h', t) ∧ Inv h' (inc (dec H s) t) [] ∧ Fr h h' ∧ Com h' t := by
  induction rounds with
  | nil =>
    intro h H hi s hs hc
    exact ⟨h, s, rfl, by rw [inc_dec hs]; exact hi, Fr.refl _, hc⟩
  | cons r rest ih =>
    intro h H hi s hs hc
    obtain ⟨h1, e1, hi1, fr1, hc1⟩ := hi.intermediate hs hc
    have hH1 : 0 < inc (dec H s) h.next h.next := by simp [inc]
    rw [RefCount.balanceRounds, e1]
    simp only [Option.bind_eq_bind, Option.bind_some]
    cases r with
    | false =>
      simp only [Bool.false_eq_true, if_false]
      obtain ⟨h2, t, e2, hi2, fr2, hc2⟩ := ih hi1 hH1 hc1
      rw [dec_inc] at hi2
      exact ⟨h2, t, e2, hi2, fr1.trans fr2, hc2⟩
    | true =>
      simp only [if_true]
      obtain ⟨h2, e2, hi2, fr2, hc2⟩ := hi1.intermediate hH1 hc1
      rw [dec_inc] at hi2
      rw [e2]
      simp only [Option.bind_some]
      obtain ⟨h3, t, e3, hi3, fr3, hc3⟩ := ih hi2 (by simp [inc]) hc2
      rw [dec_inc] at hi3
      exact ⟨h3, t, e3, hi3, (fr1.trans fr2).trans fr3, hc3⟩

theorem Inv.balance {h : Heap} {H : Nat → Nat} (hi : Inv h H []) {f s : Nat} (hf : 0 < H f)
    {cm sc : Option Nat} {a p b : Bool} (hb : Building h f (some s) cm sc a p b) (rounds : List Bool) (hr : rounds ≠ []) :
    ∃ h', balance h f rounds = some h' ∧ Inv h' H [] ∧ Fr h h' := by
  have h1 := (hi.alive hf).1
  obtain ⟨s1, s2, s3, -⟩ := (hi.typed f h1).from_ s hb.from_
  rw [RefCount.balance, show assertO (rounds ≠ []) = some () from assertO_true hr, hi.read hf]
  simp only [Option.bind_eq_bind, Option.bind_some, hb.from_]
  obtain ⟨h', e1, hi1, fr1, n1⟩ := hi.ref s1 (hi.rc_of_owned h1 s1 (by simp [own, ind, hb.from_]; try omega))
  rw [e1]
  simp only [Option.bind_some]
  have hc : Com h' s := Com.fr ⟨s2, s3⟩ fr1 s1
  obtain ⟨h2, t, e2, hi2, fr2, hc2⟩ := Inv.balanceRounds rounds hi1 (s := s) (by simp [inc]) hc
  rw [dec_inc] at hi2
  rw [e2]
  simp only [Option.bind_some]
  have hf2 : 0 < inc H t f := by simp only [inc]; split_ifs <;> omega
  have ht2 : 0 < inc H t t := by simp [inc]
  rw [hi2.read hf2, hi2.read ht2]
  simp only [Option.bind_some]
  obtain ⟨h3, e3, hi3, fr3, n3⟩ := hi2.unref ht2
  rw [dec_inc] at hi3
  exact ⟨h3, e3, hi3, (fr1.trans fr2).trans fr3⟩

/-- `read` of the source of a forest. -/
theorem Inv.readFrom {h : Heap} {H : Nat → Nat} (hi : Inv h H []) {f s : Nat} (hf : 0 < H f)
    {cm sc : Option Nat} {a p b : Bool} (hb : Building h f (some s) cm sc a p b) :
    RefCount.read h s = some (h.obj s) ∧ s < h.next ∧ Com h s ∧ 0 < (h.obj s).rc ∧ s ≠ f := by
  have h1 := (hi.alive hf).1
  obtain ⟨s1, s2, s3, -⟩ := (hi.typed f h1).from_ s hb.from_
  have hrc := hi.rc_of_owned h1 s1 (by simp [own, ind, hb.from_]; try omega)
  refine ⟨read_some s1 ?_, s1, ⟨s2, s3⟩, hrc, ?_⟩
  · cases e : (h.obj s).freed with
    | false => rfl
    | true => have := (hi.free s s1 (by simp)).1 e; omega
  · intro e; subst e; rw [hb.committed] at s3; simp at s3

theorem Inv.commit {h : Heap} {H : Nat → Nat} (hi : Inv h H []) {f F : Nat} (hf : 0 < H f) {a p b : Bool}
    (hb : Building h f (some F) none none a p b) (rounds : List Bool) (hr : b = true → rounds ≠ []) :
    ∃ h', commit h f rounds = some h' ∧ Inv h' H [] ∧ FrX f h h' ∧ Com h' f ∧ (h'.obj f).setFrom = none ∧
      (h'.obj f).cmesh = (h.obj F).cmesh ∧ (h'.obj f).scheme = (h.obj F).scheme ∧
      (h'.obj f).adapt = false ∧ (h'.obj f).partition = false ∧ (h'.obj f).balance = false := by
  obtain ⟨hal1, hal2, hal3, hal4⟩ := hi.alive hf
  obtain ⟨-, hFn, hFc, -, hFf⟩ := hi.readFrom hf hb
  rw [RefCount.commit, hi.read hf]
  simp only [Option.bind_eq_bind, Option.bind_some]
  rw [show assertO (0 < (h.obj f).rc ∧ (h.obj f).committed = false) = some () from assertO_true ⟨hal4, hb.committed⟩]
  simp only [Option.bind_some, hb.from_]
  obtain ⟨h1, c, sch, e1, hi1, fr1, n1, hb1, hc, hsch⟩ := hi.takeOver hf hb
  rw [e1]
  simp only [Option.bind_some]
  -- the state after the steps: either `set_from` is untouched, or the local variable holds the reference to it
  have step1 : ∃ h2 s H2, commitAdapt h1 f = some h2 ∧ Inv h2 H2 [] ∧ FrX f h h2 ∧
      Building h2 f (some s) (some c) (some sch) a p b ∧ (s = F ∧ H2 = H ∨ s ≠ F ∧ H2 = inc H F) := by
    rw [commitAdapt, hi1.read hf]
    simp only [Option.bind_eq_bind, Option.bind_some, hb1.adapt, hb1.partition, hb1.balance, hb1.from_]
    cases a with
    | false => simp only [Bool.false_eq_true, if_false]; exact ⟨h1, F, H, rfl, hi1, fr1, hb1, Or.inl ⟨rfl, rfl⟩⟩
    | true =>
      simp only [if_true]
      obtain ⟨r1, r2, r3, r4, r5⟩ := hi1.readFrom hf hb1
      by_cases hpb : (p || b) = true
      · rw [if_pos hpb]
        obtain ⟨h2, e2, hi2, fr2, n2⟩ := hi1.ref r2 r4
        rw [e2]
        simp only [Option.bind_some]
        obtain ⟨h3, e3, hi3, fr3, hc3⟩ := hi2.intermediate (s := F) (by simp [inc]) (r3.fr fr2 r2)
        rw [dec_inc] at hi3
        rw [e3]
        simp only [Option.bind_some]
        have hf3 : 0 < inc H h2.next f := by simp only [inc]; split_ifs <;> omega
        have hb3 := hb1.fr (fr2.trans fr3) (by omega) (hi3.alive hf3).2.2.1
        obtain ⟨h4, e4, hi4, fr4, n4, hb4, -, -⟩ := hi3.putFrom hf3 hb3 (some h2.next) (by
          intro s' hs'
          have : h2.next = s' := Option.some.inj hs'
          subst this
          exact ⟨by simp [inc], hc3⟩)
        refine ⟨h4, h2.next, inc H F, e4, hi4.congr (fun a => ?_), fr1.trans (((fr2.trans fr3).x f).trans fr4), hb4,
          Or.inr ⟨by omega, rfl⟩⟩
        simp only [inc, ind, Option.some.injEq, eq_comm (a := a)]
        split_ifs <;> omega
      · rw [if_neg hpb, r1]
        exact ⟨h1, F, H, rfl, hi1, fr1, hb1, Or.inl ⟨rfl, rfl⟩⟩
  obtain ⟨h2, s, H2, e2, hi2, fr2, hb2, hs2⟩ := step1
  rw [e2]
  simp only [Option.bind_some]
  have hf2 : 0 < H2 f := by
    rcases hs2 with ⟨-, rfl⟩ | ⟨-, rfl⟩
    · exact hf
    · simp only [inc]; split_ifs <;> omega
  have step2 : ∃ h3 s H3, commitPartition h2 f F = some h3 ∧ Inv h3 H3 [] ∧ FrX f h h3 ∧
      Building h3 f (some s) (some c) (some sch) a p b ∧ (s = F ∧ H3 = H ∨ s ≠ F ∧ H3 = inc H F) := by
    rw [commitPartition, hi2.read hf2]
    simp only [Option.bind_eq_bind, Option.bind_some, hb2.partition, hb2.balance, hb2.from_]
    cases p with
    | false => simp only [Bool.false_eq_true, if_false]; exact ⟨h2, s, H2, rfl, hi2, fr2, hb2, hs2⟩
    | true =>
      simp only [if_true]
      obtain ⟨r1, r2, r3, r4, r5⟩ := hi2.readFrom hf2 hb2
      cases b with
      | false =>
        simp only [Bool.false_eq_true, if_false]
        rw [r1]
        exact ⟨h2, s, H2, rfl, hi2, fr2, hb2, hs2⟩
      | true =>
        simp only [if_true]
        rcases hs2 with ⟨rfl, rfl⟩ | ⟨hne, rfl⟩
        · rw [if_pos rfl]
          obtain ⟨h3, e3, hi3, fr3, n3⟩ := hi2.ref r2 r4
          rw [e3]
          simp only [Option.bind_some]
          obtain ⟨h4, e4, hi4, fr4, hc4⟩ := hi3.intermediate (s := s) (by simp [inc]) (r3.fr fr3 r2)
          rw [dec_inc] at hi4
          rw [e4]
          simp only [Option.bind_some]
          have hf3 : 0 < inc H2 h3.next f := by simp only [inc]; split_ifs <;> omega
          have hb3 := hb2.fr (fr3.trans fr4) (hi2.alive hf2).1 (hi4.alive hf3).2.2.1
          obtain ⟨h5, e5, hi5, fr5, n5, hb5, -, -⟩ := hi4.putFrom hf3 hb3 (some h3.next) (by
            intro s' hs'
            have : h3.next = s' := Option.some.inj hs'
            subst this
            exact ⟨by simp [inc], hc4⟩)
          refine ⟨h5, h3.next, inc H2 s, e5, hi5.congr (fun a => ?_), fr2.trans (((fr3.trans fr4).x f).trans fr5), hb5,
            Or.inr ⟨by omega, rfl⟩⟩
          simp only [inc, ind, Option.some.injEq, eq_comm (a := a)]
          split_ifs <;> omega
        · rw [if_neg (Ne.symm hne)]
          obtain ⟨h3, e3, hi3, fr3, n3, hb3, -, -⟩ := hi2.putFrom hf2 hb2 none (by simp)
          rw [e3]
          simp only [Option.bind_some]
          have hi3' : Inv h3 (inc (inc H F) s) [] := hi3.congr (fun a => by
            simp only [inc, ind, Option.some.injEq, eq_comm (a := a)]; split_ifs <;> simp_all)
          obtain ⟨h4, e4, hi4, fr4, hc4⟩ := hi3'.intermediate (s := s) (by simp [inc]) (r3.frx fr3 r2 r5)
          rw [dec_inc] at hi4
          rw [e4]
          simp only [Option.bind_some]
          have hf4 : 0 < inc (inc H F) h3.next f := by simp only [inc]; split_ifs <;> omega
          have hb4 := hb3.fr fr4 (by have := (hi2.alive hf2).1; omega) (hi4.alive hf4).2.2.1
          obtain ⟨h5, e5, hi5, fr5, n5, hb5, -, -⟩ := hi4.putFrom hf4 hb4 (some h3.next) (by
            intro s' hs'
            have : h3.next = s' := Option.some.inj hs'
            subst this
            exact ⟨by simp [inc], hc4⟩)
          refine ⟨h5, h3.next, inc H F, e5, hi5.congr (fun a => ?_), (fr2.trans fr3).trans ((fr4.x f).trans fr5), hb5,
            Or.inr ⟨by have := fr2.next; omega, rfl⟩⟩
          simp only [inc, ind, Option.some.injEq, eq_comm (a := a)]
          split_ifs <;> simp_all
  obtain ⟨h3, s, H3, e3, hi3, fr3, hb3, hs3⟩ := step2
  rw [e3]
  simp only [Option.bind_some]
  have hf3 : 0 < H3 f := by
    rcases hs3 with ⟨-, rfl⟩ | ⟨-, rfl⟩
    · exact hf
    · simp only [inc]; split_ifs <;> omega
  have step3 : ∃ h4, commitBalance h3 f rounds = some h4 ∧ Inv h4 H3 [] ∧ FrX f h h4 ∧
      Building h4 f (some s) (some c) (some sch) a p b := by
    rw [commitBalance, hi3.read hf3]
    simp only [Option.bind_eq_bind, Option.bind_some, hb3.balance]
    cases b with
    | false => simp only [Bool.false_eq_true, if_false]; exact ⟨h3, rfl, hi3, fr3, hb3⟩
    | true =>
      simp only [if_true]
      obtain ⟨h4, e4, hi4, fr4⟩ := hi3.balance hf3 hb3 rounds (hr rfl)
      exact ⟨h4, e4, hi4, fr3.trans (fr4.x f), hb3.fr fr4 (hi3.alive hf3).1 (hi4.alive hf3).2.2.1⟩
  obtain ⟨h4, e4, hi4, fr4, hb4⟩ := step3
  rw [e4]
  simp only [Option.bind_some]
  obtain ⟨h5, e5, hi5, fr5, n5, hc5, hf5, hcm5, hsc5, hfl5⟩ := hi4.finish (F := F) hf3 hb4 (by
    intro hne
    rcases hs3 with ⟨rfl, -⟩ | ⟨-, rfl⟩
    · exact absurd rfl hne
    · exact ⟨by simp [inc], hFc.frx fr4 hFn hFf⟩)
  refine ⟨h5, e5, ?_, fr4.trans fr5, hc5, hf5, hcm5.trans hc.symm, hsc5.trans hsch.symm, hfl5⟩
  rcases hs3 with ⟨rfl, rfl⟩ | ⟨hne, rfl⟩
  · simpa using hi5
  · rw [if_neg (Ne.symm hne), dec_inc] at hi5
    exact hi5

end T8.RefCount
