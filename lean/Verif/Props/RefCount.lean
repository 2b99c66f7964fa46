/-
C47: reference counting of forests.

The user's side is specified by `Legal` and `after`: the user owns a number `H a` of references to each object and
follows the documented rules (t8_forest_general.h): only objects to which a reference is owned are used; passing a coarse
mesh, a scheme or a source forest to a forest gives the reference away; a source is a committed forest;
a forest gets either a coarse mesh and a scheme, or a source.
-/
import Verif.Lemmas.RefCommit

namespace T8.RefCount

/-- The user owns `H a` references to `a`. May the user do this operation? -/
def Legal (h : Heap) (H : Nat → Nat) : Op → Prop
  | .newResource => True
  | .init => True
  | .ref a => 0 < H a
  | .unref a => 0 < H a
  | .setCmesh f c => 0 < H f ∧ 0 < H c ∧ (h.obj f).isForest = true ∧ (h.obj f).committed = false ∧
      (h.obj f).setFrom = none ∧ (h.obj f).cmesh = none ∧ (h.obj c).isForest = false
  | .setScheme f c => 0 < H f ∧ 0 < H c ∧ (h.obj f).isForest = true ∧ (h.obj f).committed = false ∧
      (h.obj f).setFrom = none ∧ (h.obj f).scheme = none ∧ (h.obj c).isForest = false
  | .setFrom f s _ _ _ => 0 < H f ∧ 0 < H s ∧ (h.obj f).isForest = true ∧ (h.obj f).committed = false ∧
      (h.obj f).setFrom = none ∧ (h.obj f).cmesh = none ∧ (h.obj f).scheme = none ∧
      (h.obj s).isForest = true ∧ (h.obj s).committed = true
  | .commit f rounds => 0 < H f ∧ (h.obj f).isForest = true ∧ (h.obj f).committed = false ∧
      ((h.obj f).setFrom = none → (h.obj f).cmesh ≠ none ∧ (h.obj f).scheme ≠ none) ∧
      ((h.obj f).balance = true → rounds ≠ [])

/-- The references that the user owns after an operation. -/
def after (h : Heap) (H : Nat → Nat) : Op → Nat → Nat
  | .newResource => fun a => if a = h.next then H a + 1 else H a
  | .init => fun a => if a = h.next then H a + 1 else H a
  | .ref x => fun a => if a = x then H a + 1 else H a
  | .unref x => fun a => if a = x then H a - 1 else H a
  | .setCmesh _ c => fun a => if a = c then H a - 1 else H a
  | .setScheme _ c => fun a => if a = c then H a - 1 else H a
  | .setFrom _ s _ _ _ => fun a => if a = s then H a - 1 else H a
  | .commit _ _ => H

/-- The states that can be reached by legal operations, with the references owned by the user. -/
inductive Reach : Heap → (Nat → Nat) → Prop
  | start (obj : Nat → Obj) : Reach ⟨0, obj⟩ (fun _ => 0)
  | step {h h' : Heap} {H : Nat → Nat} (op : Op) : Reach h H → Legal h H op → exec h op = some h' →
      Reach h' (after h H op)

/-- Invariants of all reachable states: the counts, and uncommitted forests without a source have no pending
operation. -/
def Good (h : Heap) (H : Nat → Nat) : Prop :=
  Inv h H [] ∧ (∀ a < h.next, (h.obj a).setFrom = none → (h.obj a).freed = false → (h.obj a).adapt = false ∧
    (h.obj a).partition = false ∧ (h.obj a).balance = false) ∧
  (∀ a < h.next, ∀ s, (h.obj a).setFrom = some s → (h.obj a).cmesh = none ∧ (h.obj a).scheme = none)

/-- An operation that changes only objects in the frame keeps the second part of `Good`. -/
theorem good_fr {h h' : Heap} {H H' : Nat → Nat} (hg : Good h H) (hi : Inv h' H' []) (hfr : Fr h h')
    (hn : h'.next = h.next) : Good h' H' := by
  refine ⟨hi, ?_, ?_⟩
  · intro a ha hs hf
    rw [hn] at ha
    obtain ⟨_, _, k3, k4, k5, k6⟩ := hfr.old a ha
    obtain ⟨j1, j2, _, _⟩ := k6 hf
    rw [k3, k4, k5]
    exact hg.2.1 a ha (by rw [← j2]; exact hs) j1
  · intro a ha s hs
    rw [hn] at ha
    have hf : (h'.obj a).freed = false := by
      cases e : (h'.obj a).freed with
      | false => rfl
      | true =>
        have := ((hi.typed a (by omega)).freed e).1
        rw [this] at hs; simp at hs
    obtain ⟨_, j2, j3, j4⟩ := (hfr.old a ha).2.2.2.2.2 hf
    rw [j3, j4]
    exact hg.2.2 a ha s (by rw [← j2]; exact hs)

theorem good_set {h : Heap} {H H' : Nat → Nat} (hg : Good h H) {f : Nat} {o : Obj} (hi : Inv (h.set f o) H' [])
    (h1 : o.setFrom = none → o.adapt = false ∧ o.partition = false ∧ o.balance = false)
    (h2 : ∀ s, o.setFrom = some s → o.cmesh = none ∧ o.scheme = none) : Good (h.set f o) H' := by
  refine ⟨hi, ?_, ?_⟩
  · intro a ha
    rcases eq_or_ne a f with rfl | hne
    · rw [show (h.set a o).obj a = o by simp [Heap.set]]
      exact fun e _ => h1 e
    · rw [show (h.set f o).obj a = h.obj a by simp [Heap.set, hne]]
      exact hg.2.1 a ha
  · intro a ha
    rcases eq_or_ne a f with rfl | hne
    · rw [show (h.set a o).obj a = o by simp [Heap.set]]
      exact h2
    · rw [show (h.set f o).obj a = h.obj a by simp [Heap.set, hne]]
      exact hg.2.2 a ha

/-- New addresses without flags. -/
theorem good_alloc {h : Heap} {H : Nat → Nat} (hg : Good h H) (k : Bool) : Good (alloc h k).1 (inc H h.next) := by
  obtain ⟨hi, _⟩ := hg.1.alloc k
  have hobj : ∀ p < h.next, (alloc h k).1.obj p = h.obj p := by
    intro p hp
    have : p ≠ h.next := by omega
    simp [alloc, this]
  refine ⟨hi, ?_, ?_⟩
  · intro a ha
    rcases eq_or_ne a h.next with rfl | hne
    · simp [alloc]
    · have ha' : a < h.next + 1 := ha
      rw [hobj a (by omega)]; exact hg.2.1 a (by omega)
  · intro a ha
    rcases eq_or_ne a h.next with rfl | hne
    · simp [alloc]
    · have ha' : a < h.next + 1 := ha
      rw [hobj a (by omega)]; exact hg.2.2 a (by omega)

/-- The intermediate forests of a commit have no pending operations and are not committed with sources. -/
theorem good_commit {h h' : Heap} {H : Nat → Nat} {f : Nat} (hg : Good h H) (hi : Inv h' H []) (hfr : FrX f h h')
    (hf : (h'.obj f).setFrom = none) (hfl : (h'.obj f).adapt = false ∧ (h'.obj f).partition = false ∧
      (h'.obj f).balance = false) (hnew : ∀ a, h.next ≤ a → a < h'.next → (h'.obj a).freed = true) : Good h' H := by
  refine ⟨hi, ?_, ?_⟩
  · intro a ha hs hfa
    rcases eq_or_ne a f with rfl | hne
    · exact hfl
    · by_cases hn : a < h.next
      · obtain ⟨_, _, k3, k4, k5, k6⟩ := hfr.old a hn hne
        obtain ⟨j1, j2, _, _⟩ := k6 hfa
        rw [k3, k4, k5]
        exact hg.2.1 a hn (by rw [← j2]; exact hs) j1
      · rw [hnew a (by omega) ha] at hfa; simp at hfa
  · intro a ha s hs
    rcases eq_or_ne a f with rfl | hne
    · rw [hf] at hs; simp at hs
    · by_cases hn : a < h.next
      · have hfa : (h'.obj a).freed = false := by
          cases e : (h'.obj a).freed with
          | false => rfl
          | true =>
            have := ((hi.typed a ha).freed e).1
            rw [this] at hs; simp at hs
        obtain ⟨_, j2, j3, j4⟩ := (hfr.old a hn hne).2.2.2.2.2 hfa
        rw [j3, j4]
        exact hg.2.2 a hn s (by rw [← j2]; exact hs)
      · rw [(hfr.new a hne (by omega) ha).1] at hs; simp at hs

/-- An object to which nobody points and which the user does not own has been freed. -/
theorem freed_iff {h : Heap} {H : Nat → Nat} (hi : Inv h H []) {a : Nat} (ha : a < h.next) :
    (h.obj a).freed = true ↔ H a = 0 ∧ ∀ p < h.next, (h.obj p).setFrom ≠ some a ∧ (h.obj p).cmesh ≠ some a ∧
      (h.obj p).scheme ≠ some a := by
  rw [hi.free a ha (by simp), hi.cnt a ha (by simp), Nat.add_eq_zero_iff]
  refine and_congr Iff.rfl ?_
  unfold owners
  rw [Finset.sum_eq_zero_iff]
  constructor
  · intro h0 p hp
    have := h0 p (Finset.mem_range.2 hp)
    simp only [List.not_mem_nil, if_false, own, ind] at this
    refine ⟨fun e => ?_, fun e => ?_, fun e => ?_⟩ <;> simp [e] at this
  · intro h0 p hp
    obtain ⟨h1, h2, h3⟩ := h0 p (Finset.mem_range.1 hp)
    simp [own, ind, h1, h2, h3]

theorem exec_good {h : Heap} {H : Nat → Nat} (hg : Good h H) (op : Op) (hl : Legal h H op) :
    ∃ h', exec h op = some h' ∧ Good h' (after h H op) ∧ h.next ≤ h'.next ∧
      (∀ a < h.next, (h.obj a).freed = true → (h'.obj a).freed = true) ∧
      (∀ f rounds, op = .commit f rounds → (h'.obj f).committed = true ∧
        (∀ s, (h.obj f).setFrom = some s → (h'.obj f).cmesh = (h.obj s).cmesh ∧ (h'.obj f).scheme = (h.obj s).scheme) ∧
        ∀ a, h.next ≤ a → a < h'.next → (h'.obj a).freed = true) := by
  have hi := hg.1
  have frfreed : ∀ h', Fr h h' → ∀ a < h.next, (h.obj a).freed = true → (h'.obj a).freed = true := by
    intro h' hfr a ha hf
    cases e : (h'.obj a).freed with
    | true => rfl
    | false => have := ((hfr.old a ha).2.2.2.2.2 e).1; rw [hf] at this; simp at this
  have setfreed : ∀ (f : Nat) (o : Obj), (h.obj f).freed = false → ∀ a < h.next, (h.obj a).freed = true →
      ((h.set f o).obj a).freed = true := by
    intro f o hff a _ hf
    have : a ≠ f := by rintro rfl; rw [hff] at hf; simp at hf
    simpa [Heap.set, this] using hf
  cases op with
  | newResource =>
    refine ⟨_, rfl, good_alloc hg false, Nat.le_succ _, ?_, by simp⟩
    intro a ha hf
    have : a ≠ h.next := by omega
    simpa [alloc, this] using hf
  | init =>
    exact ⟨_, rfl, good_alloc hg true, Nat.le_succ _, frfreed _ ((hi.alloc true).2 rfl), by simp⟩
  | ref x =>
    obtain ⟨h', e, hi', fr, n⟩ := hi.ref (hi.alive hl).1 (hi.alive hl).2.2.2
    exact ⟨h', e, good_fr hg hi' fr n, by omega, frfreed _ fr, by simp⟩
  | unref x =>
    obtain ⟨h', e, hi', fr, n⟩ := hi.unref hl
    exact ⟨h', e, good_fr hg hi' fr n, by omega, frfreed _ fr, by simp⟩
  | setCmesh f c =>
    obtain ⟨l1, l2, l3, l4, l5, l6, l7⟩ := hl
    obtain ⟨a1, a2, a3, a4⟩ := hi.alive l1
    have ht := hi.typed f a1
    rw [exec, hi.read l1]
    simp only [Option.bind_eq_bind, Option.bind_some]
    rw [show assertO ((h.obj f).committed = false ∧ (h.obj f).cmesh = none ∧ (h.obj f).setFrom = none) = some () from
      assertO_true ⟨l4, l6, l5⟩]
    refine ⟨_, rfl, good_set hg ?_ ?_ ?_, le_refl _, setfreed _ _ a3, by simp⟩
    · refine hi.set a1 a2 _ a4 a3 rfl id ⟨ht.from_, ?_, ht.scheme, ht.committed, ?_, ?_⟩ ?_ ?_
      · intro c' hc'
        have : c = c' := Option.some.inj hc'
        subst this
        exact ⟨hi.bound c l2, l7, l3⟩
      · intro e; rw [l4] at e; simp at e
      · intro e; rw [a3] at e; simp at e
      · intro a
        simp only [own, l5, l6, ind_none, after]
        simp only [ind, Option.some.injEq, eq_comm (a := a)]
        split_ifs <;> simp_all <;> omega
      · intro a ha
        apply hi.bound a
        simp only [after] at ha
        split_ifs at ha <;> omega
    · exact fun _ => hg.2.1 f a1 l5 a3
    · intro s hs; rw [l5] at hs; simp at hs
  | setScheme f c =>
    obtain ⟨l1, l2, l3, l4, l5, l6, l7⟩ := hl
    obtain ⟨a1, a2, a3, a4⟩ := hi.alive l1
    have ht := hi.typed f a1
    rw [exec, hi.read l1]
    simp only [Option.bind_eq_bind, Option.bind_some]
    rw [show assertO ((h.obj f).committed = false ∧ (h.obj f).scheme = none ∧ (h.obj f).setFrom = none) = some () from
      assertO_true ⟨l4, l6, l5⟩]
    refine ⟨_, rfl, good_set hg ?_ ?_ ?_, le_refl _, setfreed _ _ a3, by simp⟩
    · refine hi.set a1 a2 _ a4 a3 rfl id ⟨ht.from_, ht.cmesh, ?_, ht.committed, ?_, ?_⟩ ?_ ?_
      · intro c' hc'
        have : c = c' := Option.some.inj hc'
        subst this
        exact ⟨hi.bound c l2, l7, l3⟩
      · intro e; rw [l4] at e; simp at e
      · intro e; rw [a3] at e; simp at e
      · intro a
        simp only [own, l5, l6, ind_none, after]
        simp only [ind, Option.some.injEq, eq_comm (a := a)]
        split_ifs <;> simp_all <;> omega
      · intro a ha
        apply hi.bound a
        simp only [after] at ha
        split_ifs at ha <;> omega
    · exact fun _ => hg.2.1 f a1 l5 a3
    · intro s hs; rw [l5] at hs; simp at hs
  | setFrom f s a p b =>
    obtain ⟨l1, l2, l3, l4, l5, l6, l7, l8, l9⟩ := hl
    obtain ⟨a1, a2, a3, a4⟩ := hi.alive l1
    have ht := hi.typed f a1
    rw [exec, hi.read l1]
    simp only [Option.bind_eq_bind, Option.bind_some]
    rw [show assertO ((h.obj f).committed = false ∧ (h.obj f).cmesh = none ∧ (h.obj f).scheme = none) = some () from
      assertO_true ⟨l4, l6, l7⟩]
    refine ⟨_, rfl, good_set hg ?_ ?_ ?_, le_refl _, setfreed _ _ a3, by simp⟩
    · refine hi.set a1 a2 _ a4 a3 rfl id ⟨?_, ht.cmesh, ht.scheme, ht.committed, ?_, ?_⟩ ?_ ?_
      · intro c' hc'
        have : s = c' := Option.some.inj hc'
        subst this
        exact ⟨hi.bound s l2, l8, l9, l3, l4⟩
      · intro e; rw [l4] at e; simp at e
      · intro e; rw [a3] at e; simp at e
      · intro a
        simp only [own, l5, l6, l7, ind_none, after]
        simp only [ind, Option.some.injEq, eq_comm (a := a)]
        split_ifs <;> simp_all <;> omega
      · intro a ha
        apply hi.bound a
        simp only [after] at ha
        split_ifs at ha <;> omega
    · intro e; simp at e
    · intro _ _; exact ⟨l6, l7⟩
  | commit f rounds =>
    obtain ⟨l1, l2, l3, l4, l5⟩ := hl
    obtain ⟨a1, a2, a3, a4⟩ := hi.alive l1
    have ht := hi.typed f a1
    cases hs : (h.obj f).setFrom with
    | none =>
      obtain ⟨m1, m2⟩ := l4 hs
      obtain ⟨g1, g2, g3⟩ := hg.2.1 f a1 hs a3
      rw [exec, commit, hi.read l1]
      simp only [Option.bind_eq_bind, Option.bind_some]
      rw [show assertO (0 < (h.obj f).rc ∧ (h.obj f).committed = false) = some () from assertO_true ⟨a4, l3⟩]
      simp only [Option.bind_some, hs]
      rw [show assertO ((h.obj f).cmesh ≠ none ∧ (h.obj f).scheme ≠ none ∧ (h.obj f).adapt = false ∧
        (h.obj f).partition = false ∧ (h.obj f).balance = false) = some () from assertO_true ⟨m1, m2, g1, g2, g3⟩]
      refine ⟨_, rfl, good_set hg ?_ ?_ ?_, le_refl _, setfreed _ _ a3, ?_⟩
      · refine hi.set a1 a2 _ a4 a3 rfl (by simp) ⟨?_, ht.cmesh, ht.scheme, fun _ => l2, fun _ _ => ⟨m1, m2⟩, ?_⟩
          ?_ hi.bound
        · intro s e; simp at e
        · intro e; rw [a3] at e; simp at e
        · intro a; simp only [own, after, hs]
      · exact fun _ => ⟨g1, g2, g3⟩
      · intro s e; simp at e
      · intro f' r' e
        obtain ⟨rfl, rfl⟩ : f = f' ∧ rounds = r' := by simpa using e
        refine ⟨by simp [Heap.set], fun s e => absurd (hs.symm.trans e) (by simp), ?_⟩
        intro a h1 h2
        have : a < h.next := h2
        omega
    | some F =>
      obtain ⟨m1, m2⟩ := hg.2.2 f a1 F hs
      have hb : Building h f (some F) none none (h.obj f).adapt (h.obj f).partition (h.obj f).balance :=
        ⟨l2, l3, hs, m1, m2, rfl, rfl, rfl⟩
      obtain ⟨h', e0, hi', fr, hc, hf, hcm, hsc, hfl⟩ := hi.commit l1 hb rounds l5
      -- no pointer to a new address is left
      have hnew : ∀ a, h.next ≤ a → a < h'.next → (h'.obj a).freed = true := by
        intro a h1 h2
        rw [freed_iff hi' h2]
        refine ⟨?_, ?_⟩
        · by_contra hn
          have := hi.bound a (by omega); omega
        · have hak : (h'.obj a).isForest = true :=
            (fr.new a (by rintro rfl; omega) h1 h2).2
          intro p hp
          have htp := hi'.typed p hp
          refine ⟨fun e => ?_, fun e => ?_, fun e => ?_⟩
          · rcases eq_or_ne p f with rfl | hne
            · rw [hf] at e; simp at e
            · by_cases hn : p < h.next
              · have hpf : (h'.obj p).freed = false := by
                  cases e' : (h'.obj p).freed with
                  | false => rfl
                  | true => rw [(htp.freed e').1] at e; simp at e
                have := ((fr.old p hn hne).2.2.2.2.2 hpf).2.1
                rw [this] at e
                have := ((hi.typed p hn).from_ a e).1
                omega
              · rw [(fr.new p hne (by omega) hp).1] at e; simp at e
          · have := (htp.cmesh a e).2.1; rw [hak] at this; simp at this
          · have := (htp.scheme a e).2.1; rw [hak] at this; simp at this
      refine ⟨h', e0, good_commit hg hi' fr hf hfl hnew, fr.next, ?_, ?_⟩
      · intro a ha hfa
        have hne : a ≠ f := by rintro rfl; rw [a3] at hfa; simp at hfa
        cases e : (h'.obj a).freed with
        | true => rfl
        | false => have := ((fr.old a ha hne).2.2.2.2.2 e).1; rw [hfa] at this; simp at this
      · intro f' r' e
        obtain ⟨rfl, rfl⟩ : f = f' ∧ rounds = r' := by simpa using e
        refine ⟨hc.2, ?_, hnew⟩
        intro s e
        have : F = s := Option.some.inj (hs.symm.trans e)
        subst this
        exact ⟨hcm, hsc⟩

theorem Reach.good {h : Heap} {H : Nat → Nat} (hr : Reach h H) : Good h H := by
  induction hr with
  | start obj =>
    refine ⟨⟨?_, by simp, ?_, by simp, ?_⟩, ?_, ?_⟩ <;> intro a ha <;> exact absurd ha (Nat.not_lt_zero _)
  | step op _ hl he ih =>
    obtain ⟨h', e, hg, _⟩ := exec_good ih op hl
    rw [he] at e
    rw [Option.some.inj e]
    exact hg

/-- C47: no legal operation uses a destroyed object, destroys an object twice or violates an assertion. -/
theorem C47_no_error {h : Heap} {H : Nat → Nat} (hr : Reach h H) (op : Op) (hl : Legal h H op) :
    ∃ h', exec h op = some h' := by
  obtain ⟨h', e, _⟩ := exec_good hr.good op hl
  exact ⟨h', e⟩

/-- C47: an object is destroyed exactly if neither the user owns a reference nor an object points to it. -/
theorem C47_destroyed_iff {h : Heap} {H : Nat → Nat} (hr : Reach h H) {a : Nat} (ha : a < h.next) :
    (h.obj a).freed = true ↔ H a = 0 ∧ ∀ p < h.next, (h.obj p).setFrom ≠ some a ∧ (h.obj p).cmesh ≠ some a ∧
      (h.obj p).scheme ≠ some a :=
  freed_iff hr.good.1 ha

/-- C47: what is destroyed stays destroyed. -/
theorem C47_stays_destroyed {h h' : Heap} {H : Nat → Nat} (hr : Reach h H) (op : Op) (hl : Legal h H op)
    (he : exec h op = some h') {a : Nat} (ha : a < h.next) (hf : (h.obj a).freed = true) : (h'.obj a).freed = true := by
  obtain ⟨h1, e, _, _, h2, _⟩ := exec_good hr.good op hl
  rw [he] at e
  rw [Option.some.inj e]
  exact h2 a ha hf

/-- C47: a commit destroys all forests that it has created for itself, and the committed forest shares coarse mesh and scheme
with its source. -/
theorem C47_commit {h h' : Heap} {H : Nat → Nat} (hr : Reach h H) (f : Nat) (rounds : List Bool)
    (hl : Legal h H (.commit f rounds)) (he : exec h (.commit f rounds) = some h') :
    (h'.obj f).committed = true ∧
    (∀ s, (h.obj f).setFrom = some s → (h'.obj f).cmesh = (h.obj s).cmesh ∧ (h'.obj f).scheme = (h.obj s).scheme) ∧
    ∀ a, h.next ≤ a → a < h'.next → (h'.obj a).freed = true := by
  obtain ⟨h1, e, _, _, _, h3⟩ := exec_good hr.good _ hl
  rw [he] at e
  rw [Option.some.inj e]
  exact h3 f rounds rfl

/-- C47: when the user has released all references, every object is destroyed. -/
theorem C47_all_released {h : Heap} {H : Nat → Nat} (hr : Reach h H) (h0 : ∀ a, H a = 0) :
    ∀ a < h.next, (h.obj a).freed = true := by
  have hi := hr.good.1
  have notFreed : ∀ p < h.next, ∀ a, (h.obj p).setFrom = some a ∨ (h.obj p).cmesh = some a ∨ (h.obj p).scheme = some a →
      (h.obj p).freed = false := by
    intro p hp a ha
    cases e : (h.obj p).freed with
    | false => rfl
    | true =>
      obtain ⟨e1, e2, e3⟩ := (hi.typed p hp).freed e
      rw [e1, e2, e3] at ha; simp at ha
  -- forests that are not committed
  have h1 : ∀ a < h.next, (h.obj a).isForest = true → (h.obj a).committed = false → (h.obj a).freed = true := by
    intro a ha hk hc
    rw [freed_iff hi ha]
    refine ⟨h0 a, fun p hp => ⟨fun e => ?_, fun e => ?_, fun e => ?_⟩⟩
    · have := ((hi.typed p hp).from_ a e).2.2.1; rw [hc] at this; simp at this
    · have := ((hi.typed p hp).cmesh a e).2.1; rw [hk] at this; simp at this
    · have := ((hi.typed p hp).scheme a e).2.1; rw [hk] at this; simp at this
  -- all forests
  have h2 : ∀ a < h.next, (h.obj a).isForest = true → (h.obj a).freed = true := by
    intro a ha hk
    rw [freed_iff hi ha]
    refine ⟨h0 a, fun p hp => ⟨fun e => ?_, fun e => ?_, fun e => ?_⟩⟩
    · obtain ⟨_, _, _, t4, t5⟩ := (hi.typed p hp).from_ a e
      have := notFreed p hp a (Or.inl e)
      rw [h1 p hp t4 t5] at this; simp at this
    · have := ((hi.typed p hp).cmesh a e).2.1; rw [hk] at this; simp at this
    · have := ((hi.typed p hp).scheme a e).2.1; rw [hk] at this; simp at this
  intro a ha
  rw [freed_iff hi ha]
  refine ⟨h0 a, fun p hp => ⟨fun e => ?_, fun e => ?_, fun e => ?_⟩⟩
  · have := notFreed p hp a (Or.inl e)
    rw [h2 p hp ((hi.typed p hp).from_ a e).2.2.2.1] at this; simp at this
  · have := notFreed p hp a (Or.inr (Or.inl e))
    rw [h2 p hp ((hi.typed p hp).cmesh a e).2.2] at this; simp at this
  · have := notFreed p hp a (Or.inr (Or.inr e))
    rw [h2 p hp ((hi.typed p hp).scheme a e).2.2] at this; simp at this

/-- A history with a forest that is adapted, partitioned and balanced from a uniform one: all operations are legal, and in
the end all references are released. -/
example : ∃ h H, Reach h H ∧ (∀ a, H a = 0) ∧ 3 < h.next := by
  have s0 := Reach.start (fun _ => ⟨false, 0, true, false, none, none, none, false, false, false⟩)
  have s1 := Reach.step .newResource s0 trivial rfl
  have s2 := Reach.step .newResource s1 trivial rfl
  have s3 := Reach.step .init s2 trivial rfl
  have s4 := Reach.step (.setCmesh 2 0) s3 (by simp [Legal, after, alloc, init]) rfl
  have s5 := Reach.step (.setScheme 2 1) s4 (by simp [Legal, after, alloc, init, Heap.set]) rfl
  have s6 := Reach.step (.commit 2 []) s5 (by simp [Legal, after, alloc, init, Heap.set]) rfl
  have s7 := Reach.step .init s6 trivial rfl
  have s8 := Reach.step (.setFrom 3 2 true true true) s7 (by simp [Legal, after, alloc, init, Heap.set]) rfl
  obtain ⟨h9, e9⟩ := C47_no_error s8 (.commit 3 [true, false]) (by simp [Legal, after, alloc, init, Heap.set])
  have s9 := Reach.step _ s8 (by simp [Legal, after, alloc, init, Heap.set]) e9
  obtain ⟨h10, e10⟩ := C47_no_error s9 (.unref 3) (by simp [Legal, after, alloc, init, Heap.set])
  have s10 := Reach.step (.unref 3) s9 (by simp [Legal, after, alloc, init, Heap.set]) e10
  refine ⟨_, _, s10, ?_, ?_⟩
  · intro a
    simp only [after, alloc, init, Heap.set]
    split_ifs <;> omega
  · have h1 := s9.good.1.bound 3 (by simp [after, alloc, init, Heap.set])
    obtain ⟨h', e, _, n, _⟩ := exec_good s9.good (.unref 3) (by simp [Legal, after, alloc, init, Heap.set])
    rw [e10] at e
    rw [Option.some.inj e]
    omega

end T8.RefCount
