/-
The reference count invariant and its preservation by the primitive operations.
-/
import Verif.Model.RefCount
import Mathlib.Algebra.BigOperators.Group.Finset.Basic
import Mathlib.Algebra.BigOperators.Intervals

namespace T8.RefCount

open Finset

/-- 1 if the pointer `o` points to `a`. -/
def ind (o : Option Nat) (a : Nat) : Nat := if o = some a then 1 else 0

@[simp] theorem ind_none (a : Nat) : ind none a = 0 := by simp [ind]

/-- How many of the pointers of an object point to `a`. -/
def own (o : Obj) (a : Nat) : Nat := ind o.setFrom a + ind o.cmesh a + ind o.scheme a

/-- The number of pointers to `a` from objects outside of `X`. -/
def owners (h : Heap) (X : List Nat) (a : Nat) : Nat :=
  ∑ p ∈ range h.next, if p ∈ X then 0 else own (h.obj p) a

theorem owners_split {h : Heap} {X : List Nat} {x : Nat} (hx : x < h.next) (hX : x ∉ X) (a : Nat) :
    owners h X a = own (h.obj x) a + owners h (x :: X) a := by
  unfold owners
  rw [← Finset.add_sum_erase _ _ (mem_range.2 hx), ← Finset.add_sum_erase (range h.next) (fun p => if p ∈ x :: X then 0 else own (h.obj p) a) (mem_range.2 hx)]
  simp only [hX, if_false, List.mem_cons, true_or, if_true, Nat.zero_add]
  congr 1
  apply Finset.sum_congr rfl
  intro p hp
  have : p ≠ x := (Finset.mem_erase.1 hp).1
  simp [this]

theorem owners_set_dying {h : Heap} {X : List Nat} {x : Nat} (hX : x ∈ X) (o : Obj) (a : Nat) :
    owners (h.set x o) X a = owners h X a := by
  unfold owners
  apply Finset.sum_congr rfl
  intro p _
  by_cases hp : p = x
  · subst hp; simp [hX]
  · simp [Heap.set, hp]

theorem owners_set {h : Heap} {X : List Nat} {x : Nat} (hx : x < h.next) (hX : x ∉ X) (o : Obj) (a : Nat) :
    owners (h.set x o) X a + own (h.obj x) a = owners h X a + own o a := by
  have h1 := owners_split (h := h.set x o) (X := X) (x := x) hx hX a
  have h2 := owners_split (h := h) (X := X) (x := x) hx hX a
  rw [owners_set_dying (List.mem_cons_self ..), show (h.set x o).obj x = o by simp [Heap.set]] at h1
  omega

theorem own_le_owners {h : Heap} {X : List Nat} {p : Nat} (hp : p < h.next) (hX : p ∉ X) (a : Nat) :
    own (h.obj p) a ≤ owners h X a := by
  rw [owners_split hp hX]; omega

/-- The pointers of an object have the right types. -/
structure Typed (h : Heap) (o : Obj) : Prop where
  from_ : ∀ s, o.setFrom = some s →
    s < h.next ∧ (h.obj s).isForest = true ∧ (h.obj s).committed = true ∧ o.isForest = true ∧ o.committed = false
  cmesh : ∀ c, o.cmesh = some c → c < h.next ∧ (h.obj c).isForest = false ∧ o.isForest = true
  scheme : ∀ c, o.scheme = some c → c < h.next ∧ (h.obj c).isForest = false ∧ o.isForest = true
  committed : o.committed = true → o.isForest = true
  ready : o.committed = true → o.freed = false → o.cmesh ≠ none ∧ o.scheme ≠ none
  freed : o.freed = true → o.setFrom = none ∧ o.cmesh = none ∧ o.scheme = none

/-- The invariant: `H a` is the number of references to `a` that are held outside of the heap, `X` are the objects that
are just being destroyed. -/
structure Inv (h : Heap) (H : Nat → Nat) (X : List Nat) : Prop where
  cnt : ∀ a < h.next, a ∉ X → (h.obj a).rc = H a + owners h X a
  dying : ∀ a ∈ X, H a + owners h X a = 0 ∧ a < h.next ∧ (h.obj a).freed = false ∧ (h.obj a).rc = 0
  free : ∀ a < h.next, a ∉ X → ((h.obj a).freed = true ↔ (h.obj a).rc = 0)
  bound : ∀ a, 0 < H a → a < h.next
  typed : ∀ a < h.next, Typed h (h.obj a)

def inc (H : Nat → Nat) (x : Nat) : Nat → Nat := fun a => if a = x then H a + 1 else H a
def dec (H : Nat → Nat) (x : Nat) : Nat → Nat := fun a => if a = x then H a - 1 else H a

theorem dec_inc (H : Nat → Nat) (x : Nat) : dec (inc H x) x = H := by
  funext a; by_cases h : a = x <;> simp [inc, dec, h]

theorem inc_comm (H : Nat → Nat) (x y : Nat) : inc (inc H x) y = inc (inc H y) x := by
  funext a; simp only [inc]; split_ifs <;> rfl

theorem inc_dec {H : Nat → Nat} {x : Nat} (hx : 0 < H x) : inc (dec H x) x = H := by
  funext a; simp only [inc, dec]; rcases eq_or_ne a x with rfl | h
  · simp; omega
  · simp [h]

theorem dec_inc_comm {H : Nat → Nat} {x y : Nat} (hx : 0 < H x) : dec (inc H y) x = inc (dec H x) y := by
  funext a; simp only [inc, dec]; rcases eq_or_ne a x with rfl | h
  · split_ifs <;> omega
  · simp [h]

/-- What an operation leaves unchanged for all objects. -/
structure Fr (h h' : Heap) : Prop where
  next : h.next ≤ h'.next
  old : ∀ p < h.next, (h'.obj p).isForest = (h.obj p).isForest ∧ (h'.obj p).committed = (h.obj p).committed ∧
    (h'.obj p).adapt = (h.obj p).adapt ∧ (h'.obj p).partition = (h.obj p).partition ∧
    (h'.obj p).balance = (h.obj p).balance ∧
    ((h'.obj p).freed = false → (h.obj p).freed = false ∧ (h'.obj p).setFrom = (h.obj p).setFrom ∧
      (h'.obj p).cmesh = (h.obj p).cmesh ∧ (h'.obj p).scheme = (h.obj p).scheme)
  new : ∀ p, h.next ≤ p → p < h'.next → (h'.obj p).setFrom = none ∧ (h'.obj p).isForest = true
  freedFrom : ∀ p < h.next, (h'.obj p).freed = true → (h'.obj p).setFrom = none ∨ (h'.obj p).setFrom = (h.obj p).setFrom

theorem Fr.refl (h : Heap) : Fr h h :=
  ⟨le_refl _, fun _ _ => ⟨rfl, rfl, rfl, rfl, rfl, fun hf => ⟨hf, rfl, rfl, rfl⟩⟩, fun p h1 h2 => by omega,
   fun _ _ _ => Or.inr rfl⟩

theorem Fr.trans {h1 h2 h3 : Heap} (a : Fr h1 h2) (b : Fr h2 h3) : Fr h1 h3 := by
  refine ⟨a.next.trans b.next, ?_, ?_, ?_⟩
  · intro p hp
    obtain ⟨a1, a2, a3, a4, a5, a6⟩ := a.old p hp
    obtain ⟨b1, b2, b3, b4, b5, b6⟩ := b.old p (lt_of_lt_of_le hp a.next)
    refine ⟨b1.trans a1, b2.trans a2, b3.trans a3, b4.trans a4, b5.trans a5, fun hf => ?_⟩
    obtain ⟨c1, c2, c3, c4⟩ := b6 hf
    obtain ⟨d1, d2, d3, d4⟩ := a6 c1
    exact ⟨d1, c2.trans d2, c3.trans d3, c4.trans d4⟩
  · intro p h1p h3p
    by_cases hp : p < h2.next
    · obtain ⟨this, hk⟩ := a.new p h1p hp
      refine ⟨?_, (b.old p hp).1.trans hk⟩
      cases hf : (h3.obj p).freed with
      | false =>
        have := ((b.old p hp).2.2.2.2.2 hf).2.1
        simp_all
      | true =>
        rcases b.freedFrom p hp hf with h | h
        · exact h
        · simp_all
    · exact b.new p (by omega) h3p
  · intro p hp hf
    have hp2 := lt_of_lt_of_le hp a.next
    rcases b.freedFrom p hp2 hf with h | h
    · exact Or.inl h
    · cases hf2 : (h2.obj p).freed with
      | true =>
        rcases a.freedFrom p hp hf2 with h' | h'
        · exact Or.inl (h.trans h')
        · exact Or.inr (h.trans h')
      | false => exact Or.inr (h.trans ((a.old p hp).2.2.2.2.2 hf2).2.1)

theorem Typed.mono {h h' : Heap} {o : Obj} (ht : Typed h o) (hn : h.next ≤ h'.next)
    (hk : ∀ a < h.next, (h'.obj a).isForest = (h.obj a).isForest ∧ ((h.obj a).committed = true → (h'.obj a).committed = true)) :
    Typed h' o := by
  refine ⟨?_, ?_, ?_, ht.committed, ht.ready, ht.freed⟩
  · intro s hs
    obtain ⟨h1, h2, h3, h4⟩ := ht.from_ s hs
    exact ⟨by omega, by rw [(hk s h1).1, h2], (hk s h1).2 h3, h4⟩
  · intro s hs
    obtain ⟨h1, h2, h3⟩ := ht.cmesh s hs
    exact ⟨by omega, by rw [(hk s h1).1, h2], h3⟩
  · intro s hs
    obtain ⟨h1, h2, h3⟩ := ht.scheme s hs
    exact ⟨by omega, by rw [(hk s h1).1, h2], h3⟩

theorem Inv.alive {h : Heap} {H : Nat → Nat} {X : List Nat} (hi : Inv h H X) {x : Nat} (hx : 0 < H x) :
    x < h.next ∧ x ∉ X ∧ (h.obj x).freed = false ∧ 0 < (h.obj x).rc := by
  have h1 := hi.bound x hx
  have h2 : x ∉ X := fun hX => by have := (hi.dying x hX).1; omega
  have h3 := hi.cnt x h1 h2
  have h4 := hi.free x h1 h2
  refine ⟨h1, h2, ?_, by omega⟩
  cases hf : (h.obj x).freed with
  | false => rfl
  | true => have := h4.1 hf; omega

theorem read_some {h : Heap} {x : Nat} (h1 : x < h.next) (h2 : (h.obj x).freed = false) :
    read h x = some (h.obj x) := by
  unfold read
  rw [show assertO (x < h.next ∧ (h.obj x).freed = false) = some () from assertO_true ⟨h1, h2⟩]; rfl

theorem Inv.read {h : Heap} {H : Nat → Nat} {X : List Nat} (hi : Inv h H X) {x : Nat} (hx : 0 < H x) :
    read h x = some (h.obj x) := read_some (hi.alive hx).1 (hi.alive hx).2.2.1

/-- Changing one object. -/
theorem Inv.set {h : Heap} {H H' : Nat → Nat} {X : List Nat} (hi : Inv h H X) {x : Nat} (hx : x < h.next) (hX : x ∉ X)
    (o : Obj) (hrc : 0 < o.rc) (hof : o.freed = false) (hk : o.isForest = (h.obj x).isForest)
    (hc : (h.obj x).committed = true → o.committed = true) (ht : Typed h o)
    (hbal : ∀ a, H' a + own o a + (if a = x then (h.obj x).rc else 0) = H a + own (h.obj x) a + (if a = x then o.rc else 0))
    (hb : ∀ a, 0 < H' a → a < h.next) :
    Inv (h.set x o) H' X := by
  have hmono : ∀ a < h.next, ((h.set x o).obj a).isForest = (h.obj a).isForest ∧
      ((h.obj a).committed = true → ((h.set x o).obj a).committed = true) := by
    intro a _
    simp only [Heap.set]
    split_ifs with h1
    · subst h1; exact ⟨hk, hc⟩
    · exact ⟨rfl, id⟩
  refine ⟨?_, ?_, ?_, ?_, ?_⟩
  · intro a ha hXa
    have h1 := hi.cnt a ha hXa
    have h2 := owners_set (h := h) hx hX o a
    have h3 := hbal a
    simp only [Heap.set]
    split_ifs with hax
    · subst hax; simp at h3; simp only [Heap.set] at h2; omega
    · simp [hax] at h3; simp only [Heap.set] at h2; omega
  · intro a ha
    obtain ⟨h1, h2, h3, h4⟩ := hi.dying a ha
    have hax : a ≠ x := fun h => hX (h ▸ ha)
    have h5 := owners_set (h := h) hx hX o a
    have h6 := hbal a
    simp [hax] at h6
    refine ⟨by omega, h2, by simp [Heap.set, hax, h3], by simp [Heap.set, hax, h4]⟩
  · intro a ha hXa
    have := hi.free a ha hXa
    simp only [Heap.set]
    split_ifs with hax
    · subst hax
      constructor
      · intro h; rw [hof] at h; simp at h
      · intro h; omega
    · exact this
  · intro a ha; exact hb a ha
  · intro a ha
    by_cases hax : a = x
    · subst hax
      rw [show (h.set a o).obj a = o by simp [Heap.set]]
      exact ht.mono (le_refl _) hmono
    · rw [show (h.set x o).obj a = h.obj a by simp [Heap.set, hax]]
      exact (hi.typed a ha).mono (le_refl _) hmono

theorem Fr.set {h : Heap} {x : Nat} (o : Obj) (h1 : o.isForest = (h.obj x).isForest)
    (h2 : o.committed = (h.obj x).committed) (h3 : o.adapt = (h.obj x).adapt) (h4 : o.partition = (h.obj x).partition)
    (h5 : o.balance = (h.obj x).balance)
    (h6 : o.freed = false → (h.obj x).freed = false ∧ o.setFrom = (h.obj x).setFrom ∧ o.cmesh = (h.obj x).cmesh ∧
      o.scheme = (h.obj x).scheme)
    (h7 : o.freed = true → o.setFrom = none ∨ o.setFrom = (h.obj x).setFrom) : Fr h (h.set x o) := by
  refine ⟨le_refl _, ?_, fun p h1 h2 => by simp only [Heap.set] at h2; omega, ?_⟩
  · intro p _
    simp only [Heap.set]
    split_ifs with hp
    · subst hp; exact ⟨h1, h2, h3, h4, h5, h6⟩
    · exact ⟨rfl, rfl, rfl, rfl, rfl, fun hf => ⟨hf, rfl, rfl, rfl⟩⟩
  · intro p _
    simp only [Heap.set]
    split_ifs with hp
    · subst hp; exact h7
    · exact fun _ => Or.inr rfl

/-- The depth of the ownership below an object. -/
def lvl (o : Obj) : Nat := if o.isForest then (if o.committed then 1 else 2) else 0

/-- The property of `unref` that is proved by induction on the level. -/
def UnrefOk (n : Nat) : Prop := ∀ (h : Heap) (H : Nat → Nat) (X : List Nat) (x : Nat), Inv h H X → 0 < H x →
  lvl (h.obj x) < n → ∃ h', unref h x = some h' ∧ Inv h' (dec H x) X ∧ Fr h h' ∧ h'.next = h.next ∧
    ∀ a ∈ X, h'.obj a = h.obj a

theorem unrefOpt_ok {n : Nat} (hu : UnrefOk n) {h : Heap} {H : Nat → Nat} {X : List Nat} (o : Option Nat)
    (hi : Inv h (fun a => H a + ind o a) X) (hl : ∀ b, o = some b → lvl (h.obj b) < n) :
    ∃ h', unrefOpt h o = some h' ∧ Inv h' H X ∧ Fr h h' ∧ h'.next = h.next ∧ ∀ a ∈ X, h'.obj a = h.obj a := by
  cases o with
  | none => rw [unrefOpt]; exact ⟨h, rfl, by simpa using hi, Fr.refl _, rfl, fun _ _ => rfl⟩
  | some b =>
    rw [unrefOpt]
    obtain ⟨h', h1, h2, h3⟩ := hu h _ X b hi (by simp [ind]) (hl b rfl)
    refine ⟨h', h1, ?_, h3⟩
    convert h2 using 1
    funext a; unfold dec ind
    split_ifs with e <;> simp_all [eq_comm]

theorem lvl_congr {o o' : Obj} (h1 : o'.isForest = o.isForest) (h2 : o'.committed = o.committed) : lvl o' = lvl o := by
  simp [lvl, h1, h2]

theorem Inv.congr {h : Heap} {H H' : Nat → Nat} {X : List Nat} (hi : Inv h H X) (hH : ∀ a, H' a = H a) :
    Inv h H' X := by
  rwa [show H' = H from funext hH]

/-- The last reference to `x` goes away: its pointers become references of the destroying function. -/
theorem Inv.startDying {h : Heap} {H : Nat → Nat} {X : List Nat} (hi : Inv h H X) {x : Nat} (hx : 0 < H x)
    (hrc : (h.obj x).rc - 1 = 0) :
    Inv (h.set x { h.obj x with rc := (h.obj x).rc - 1 }) (fun a => dec H x a + own (h.obj x) a) (x :: X) := by
  obtain ⟨h1, h2, h3, h4⟩ := hi.alive hx
  have hcx := hi.cnt x h1 h2
  have hmono : ∀ a < h.next,
      ((h.set x { h.obj x with rc := (h.obj x).rc - 1 }).obj a).isForest = (h.obj a).isForest ∧
      ((h.obj a).committed = true → ((h.set x { h.obj x with rc := (h.obj x).rc - 1 }).obj a).committed = true) := by
    intro a _
    simp only [Heap.set]
    split_ifs with e
    · subst e; exact ⟨rfl, id⟩
    · exact ⟨rfl, id⟩
  refine ⟨?_, ?_, ?_, ?_, ?_⟩
  · intro a ha hXa
    have hax : a ≠ x := fun e => hXa (by simp [e])
    have := hi.cnt a ha (fun e => hXa (by simp [e]))
    rw [owners_set_dying (List.mem_cons_self ..), owners_split h1 h2] at *
    simp only [Heap.set, hax, if_false, dec]
    omega
  · intro a ha
    rw [owners_set_dying (List.mem_cons_self ..)]
    rcases eq_or_ne a x with rfl | hax
    · rw [owners_split h1 h2] at hcx
      simp only [Heap.set, if_true, dec]
      exact ⟨by omega, h1, h3, hrc⟩
    · have ha' : a ∈ X := by simpa [hax] using ha
      obtain ⟨d1, d2, d3, d4⟩ := hi.dying a ha'
      rw [owners_split h1 h2] at d1
      simp only [Heap.set, hax, if_false, dec]
      exact ⟨by omega, d2, d3, d4⟩
  · intro a ha hXa
    have hax : a ≠ x := fun e => hXa (by simp [e])
    have := hi.free a ha (fun e => hXa (by simp [e]))
    simpa only [Heap.set, hax, if_false] using this
  · intro a ha
    simp only [dec] at ha
    by_contra hn
    have hn' : ¬ a < h.next := hn
    have h5 : ¬ 0 < H a := fun e => hn' (hi.bound a e)
    have h6 : own (h.obj x) a = 0 := by
      have ht := hi.typed x h1
      unfold own ind
      rw [if_neg (fun e => hn' (ht.from_ a e).1), if_neg (fun e => hn' (ht.cmesh a e).1),
        if_neg (fun e => hn' (ht.scheme a e).1)]
    split_ifs at ha <;> omega
  · intro a ha
    rcases eq_or_ne a x with rfl | hax
    · rw [show (h.set a { h.obj a with rc := (h.obj a).rc - 1 }).obj a = { h.obj a with rc := (h.obj a).rc - 1 } by
        simp [Heap.set]]
      have ht := Typed.mono (h' := h.set a { h.obj a with rc := (h.obj a).rc - 1 }) (hi.typed a h1) (le_refl _) hmono
      exact ⟨ht.from_, ht.cmesh, ht.scheme, ht.committed, ht.ready, ht.freed⟩
    · rw [show (h.set x { h.obj x with rc := (h.obj x).rc - 1 }).obj a = h.obj a by simp [Heap.set, hax]]
      exact (hi.typed a ha).mono (le_refl _) hmono

/-- The destruction of `x` ends. -/
theorem Inv.endDying {h : Heap} {H : Nat → Nat} {X : List Nat} {x : Nat} (hi : Inv h H (x :: X)) (hX : x ∉ X) :
    Inv (h.set x { h.obj x with rc := 0, freed := true, setFrom := none, cmesh := none, scheme := none }) H X := by
  obtain ⟨d1, d2, d3, d4⟩ := hi.dying x (by simp)
  generalize ho : ({ h.obj x with rc := 0, freed := true, setFrom := none, cmesh := none, scheme := none } : Obj) = o
  have hown : ∀ a, own o a = 0 := by intro a; subst ho; simp [own]
  have how : ∀ a, owners (h.set x o) X a = owners h (x :: X) a := by
    intro a
    have e1 := owners_set (h := h) d2 hX o a
    have e2 := owners_split (h := h) d2 hX a
    have := hown a
    omega
  have hmono : ∀ a < h.next, ((h.set x o).obj a).isForest = (h.obj a).isForest ∧
      ((h.obj a).committed = true → ((h.set x o).obj a).committed = true) := by
    intro a _
    simp only [Heap.set]
    split_ifs with e
    · subst e; subst ho; exact ⟨rfl, id⟩
    · exact ⟨rfl, id⟩
  refine ⟨?_, ?_, ?_, hi.bound, ?_⟩
  · intro a ha hXa
    rw [how]
    rcases eq_or_ne a x with rfl | hax
    · rw [d1]; subst ho; simp [Heap.set]
    · rw [show (h.set x o).obj a = h.obj a by simp [Heap.set, hax]]
      exact hi.cnt a ha (by simp [hax, hXa])
  · intro a ha
    have hax : a ≠ x := fun e => hX (e ▸ ha)
    rw [how, show (h.set x o).obj a = h.obj a by simp [Heap.set, hax]]
    exact hi.dying a (by simp [ha])
  · intro a ha hXa
    rcases eq_or_ne a x with rfl | hax
    · subst ho; simp [Heap.set]
    · rw [show (h.set x o).obj a = h.obj a by simp [Heap.set, hax]]
      exact hi.free a ha (by simp [hax, hXa])
  · intro a ha
    rcases eq_or_ne a x with rfl | hax
    · have ht := hi.typed a d2
      rw [show (h.set a o).obj a = o by simp [Heap.set]]
      subst ho
      exact ⟨by simp, by simp, by simp, ht.committed, by simp, by simp⟩
    · rw [show (h.set x o).obj a = h.obj a by simp [Heap.set, hax]]
      exact (hi.typed a ha).mono (le_refl _) hmono

theorem unref_ok (n : Nat) : UnrefOk n := by
  induction n with
  | zero => intro h H X x _ _ hl; omega
  | succ n ih =>
    intro h H X x hi hx hl
    obtain ⟨a1, a2, a3, a4⟩ := hi.alive hx
    have ht := hi.typed x a1
    rw [unref, hi.read hx]
    simp only [Option.bind_eq_bind, Option.bind_some]
    rw [show assertO (0 < (h.obj x).rc) = some () from assertO_true a4]
    simp only [Option.bind_some]
    by_cases hz : (h.obj x).rc - 1 = 0
    · rw [if_pos hz]
      have hi1 := hi.startDying hx hz
      have hfr1 : Fr h (h.set x { h.obj x with rc := (h.obj x).rc - 1 }) :=
        Fr.set _ rfl rfl rfl rfl rfl (fun _ => ⟨a3, rfl, rfl, rfl⟩) (fun _ => Or.inr rfl)
      have hx1 : (h.set x { h.obj x with rc := (h.obj x).rc - 1 }).obj x = { h.obj x with rc := (h.obj x).rc - 1 } := by
        simp [Heap.set]
      have hX1 : ∀ a ∈ X, (h.set x { h.obj x with rc := (h.obj x).rc - 1 }).obj a = h.obj a := by
        intro a ha
        have : a ≠ x := fun e => a2 (e ▸ ha)
        simp [Heap.set, this]
      have hn1 : (h.set x { h.obj x with rc := (h.obj x).rc - 1 }).next = h.next := rfl
      generalize hh1 : h.set x { h.obj x with rc := (h.obj x).rc - 1 } = h1 at *
      have hlev : ∀ p < h.next, lvl (h1.obj p) = lvl (h.obj p) :=
        fun p hp => lvl_congr (hfr1.old p hp).1 (hfr1.old p hp).2.1
      rw [reset]
      obtain ⟨d1, d2, d3, d4⟩ := hi1.dying x (by simp)
      rw [read_some d2 d3]
      simp only [Option.bind_eq_bind, Option.bind_some]
      rw [show assertO ((h1.obj x).rc = 0) = some () from assertO_true d4]
      simp only [Option.bind_some]
      have hcf : (h1.obj x).committed = true → (h1.obj x).setFrom = none := by
        intro hc
        cases hs : (h1.obj x).setFrom with
        | none => rfl
        | some s =>
          have := ((hi1.typed x d2).from_ s hs).2.2.2.2
          rw [this] at hc; simp at hc
      rw [show assertO ((h1.obj x).committed = true → (h1.obj x).setFrom = none) = some () from assertO_true hcf]
      simp only [Option.bind_some]
      have e1 : (h1.obj x).setFrom = (h.obj x).setFrom := by rw [hx1]
      rw [e1]
      -- set_from
      obtain ⟨h2, hu2, hi2, hfr2, hn2, hX2⟩ := unrefOpt_ok (n := n) ih
        (H := fun a => dec H x a + ind (h.obj x).cmesh a + ind (h.obj x).scheme a) (h.obj x).setFrom
        (hi1.congr (fun a => by simp only [own]; omega))
        (by
          intro b hb
          obtain ⟨t1, t2, t3, t4, t5⟩ := ht.from_ b hb
          rw [hlev b t1]
          simp only [lvl, t2, t3, t4, t5] at hl ⊢; simp at hl ⊢; omega)
      rw [hu2]
      simp only [Option.bind_some]
      have hxx2 : h2.obj x = h1.obj x := hX2 x (by simp)
      rw [read_some (by rw [hn2]; exact d2) (by rw [hxx2]; exact d3)]
      simp only [Option.bind_some]
      have e2 : (h2.obj x).scheme = (h.obj x).scheme := by rw [hxx2, hx1]
      rw [e2]
      obtain ⟨h3, hu3, hi3, hfr3, hn3, hX3⟩ := unrefOpt_ok (n := n) ih
        (H := fun a => dec H x a + ind (h.obj x).cmesh a) (h.obj x).scheme hi2
        (by
          intro b hb
          obtain ⟨t1, t2, t3⟩ := ht.scheme b hb
          have := lvl_congr (hfr2.old b (by omega)).1 (hfr2.old b (by omega)).2.1
          rw [this, hlev b t1]
          simp only [lvl, t2, t3] at hl ⊢; simp at hl ⊢; split_ifs at hl <;> omega)
      rw [hu3]
      simp only [Option.bind_some]
      have hxx3 : h3.obj x = h1.obj x := (hX3 x (by simp)).trans hxx2
      rw [read_some (by rw [hn3, hn2]; exact d2) (by rw [hxx3]; exact d3)]
      simp only [Option.bind_some]
      have e3 : (h3.obj x).cmesh = (h.obj x).cmesh := by rw [hxx3, hx1]
      rw [e3]
      obtain ⟨h4, hu4, hi4, hfr4, hn4, hX4⟩ := unrefOpt_ok (n := n) ih (H := dec H x) (h.obj x).cmesh hi3
        (by
          intro b hb
          obtain ⟨t1, t2, t3⟩ := ht.cmesh b hb
          have l2 := lvl_congr (hfr2.old b (by omega)).1 (hfr2.old b (by omega)).2.1
          have l3 := lvl_congr (hfr3.old b (by omega)).1 (hfr3.old b (by omega)).2.1
          rw [l3, l2, hlev b t1]
          simp only [lvl, t2, t3] at hl ⊢; simp at hl ⊢; split_ifs at hl <;> omega)
      rw [hu4]
      simp only [Option.bind_some]
      have hxx4 : h4.obj x = h1.obj x := (hX4 x (by simp)).trans hxx3
      rw [free, read_some (by rw [hn4, hn3, hn2]; exact d2) (by rw [hxx4]; exact d3)]
      simp only [Option.bind_eq_bind, Option.bind_some]
      refine ⟨_, rfl, hi4.endDying a2, ?_, ?_, ?_⟩
      · refine (((hfr1.trans hfr2).trans hfr3).trans hfr4).trans (Fr.set _ rfl rfl rfl rfl rfl ?_ ?_)
        · intro h; simp at h
        · intro _; exact Or.inl rfl
      · show h4.next = h.next
        omega
      · intro a ha
        have hax : a ≠ x := fun e => a2 (e ▸ ha)
        rw [show ∀ o, (h4.set x o).obj a = h4.obj a by intro o; simp [Heap.set, hax]]
        rw [hX4 a (by simp [ha]), hX3 a (by simp [ha]), hX2 a (by simp [ha]), hX1 a ha]
    · rw [if_neg hz]
      refine ⟨_, rfl, ?_, ?_, rfl, ?_⟩
      · refine hi.set a1 a2 _ ?_ a3 rfl id ⟨ht.from_, ht.cmesh, ht.scheme, ht.committed, ht.ready, ht.freed⟩ ?_ ?_
        · show 0 < (h.obj x).rc - 1; omega
        · intro a
          show dec H x a + own (h.obj x) a + _ = H a + own (h.obj x) a + (if a = x then (h.obj x).rc - 1 else 0)
          rcases eq_or_ne a x with rfl | hax
          · simp only [dec, if_true]; omega
          · simp only [dec, hax, if_false]
        · intro a ha
          apply hi.bound a
          simp only [dec] at ha
          split_ifs at ha <;> omega
      · exact Fr.set _ rfl rfl rfl rfl rfl (fun _ => ⟨a3, rfl, rfl, rfl⟩) (fun _ => Or.inr rfl)
      · intro a ha
        have hax : a ≠ x := fun e => a2 (e ▸ ha)
        simp [Heap.set, hax]

theorem Inv.unref {h : Heap} {H : Nat → Nat} (hi : Inv h H []) {x : Nat} (hx : 0 < H x) :
    ∃ h', unref h x = some h' ∧ Inv h' (dec H x) [] ∧ Fr h h' ∧ h'.next = h.next := by
  obtain ⟨h', h1, h2, h3, h4, _⟩ := unref_ok 3 h H [] x hi hx (by unfold lvl; split_ifs <;> omega)
  exact ⟨h', h1, h2, h3, h4⟩

/-- Taking a reference to something that is referenced. -/
theorem Inv.ref {h : Heap} {H : Nat → Nat} (hi : Inv h H []) {x : Nat} (hx : x < h.next) (hr : 0 < (h.obj x).rc) :
    ∃ h', ref h x = some h' ∧ Inv h' (inc H x) [] ∧ Fr h h' ∧ h'.next = h.next := by
  have hf : (h.obj x).freed = false := by
    cases hf : (h.obj x).freed with
    | false => rfl
    | true => have := (hi.free x hx (by simp)).1 hf; omega
  have ht := hi.typed x hx
  rw [RefCount.ref, read_some hx hf]
  simp only [Option.bind_eq_bind, Option.bind_some]
  rw [show assertO (0 < (h.obj x).rc) = some () from assertO_true hr]
  refine ⟨_, rfl, ?_, ?_, rfl⟩
  · refine hi.set hx (by simp) _ (Nat.succ_pos _) hf rfl id
      ⟨ht.from_, ht.cmesh, ht.scheme, ht.committed, ht.ready, ht.freed⟩ ?_ ?_
    · intro a
      show inc H x a + own (h.obj x) a + _ = H a + own (h.obj x) a + (if a = x then (h.obj x).rc + 1 else 0)
      rcases eq_or_ne a x with rfl | hax
      · simp only [inc, if_true]; omega
      · simp only [inc, hax, if_false]
    · intro a ha
      rcases eq_or_ne a x with rfl | hax
      · exact hx
      · simp only [inc, hax, if_false] at ha; exact hi.bound a ha
  · exact Fr.set _ rfl rfl rfl rfl rfl (fun _ => ⟨hf, rfl, rfl, rfl⟩) (fun _ => Or.inr rfl)

theorem Inv.rc_of_owned {h : Heap} {H : Nat → Nat} (hi : Inv h H []) {p c : Nat} (hp : p < h.next) (hc : c < h.next)
    (ho : 0 < own (h.obj p) c) : 0 < (h.obj c).rc := by
  have h1 := hi.cnt c hc (by simp)
  have h2 := own_le_owners (h := h) (X := []) hp (by simp) c
  omega

theorem Inv.alloc {h : Heap} {H : Nat → Nat} (hi : Inv h H []) (k : Bool) :
    Inv (alloc h k).1 (inc H h.next) [] ∧ (k = true → Fr h (alloc h k).1) := by
  have hH : H h.next = 0 := by
    by_contra hn
    have := hi.bound h.next (by omega); omega
  have hobj : ∀ p < h.next, (RefCount.alloc h k).1.obj p = h.obj p := by
    intro p hp
    have : p ≠ h.next := by omega
    simp [RefCount.alloc, this]
  have hown : ∀ a, own ((RefCount.alloc h k).1.obj h.next) a = 0 := by intro a; simp [RefCount.alloc, own]
  have how : ∀ a, owners (RefCount.alloc h k).1 [] a = owners h [] a := by
    intro a
    unfold owners
    rw [show (RefCount.alloc h k).1.next = h.next + 1 from rfl, Finset.sum_range_succ]
    simp only [List.not_mem_nil, if_false, hown, Nat.add_zero]
    apply Finset.sum_congr rfl
    intro p hp
    rw [hobj p (Finset.mem_range.1 hp)]
  have hnew : owners h [] h.next = 0 := by
    unfold owners
    apply Finset.sum_eq_zero
    intro p hp
    have ht := hi.typed p (Finset.mem_range.1 hp)
    rw [if_neg (by simp)]
    unfold own ind
    rw [if_neg (fun e => Nat.lt_irrefl _ (ht.from_ _ e).1), if_neg (fun e => Nat.lt_irrefl _ (ht.cmesh _ e).1),
      if_neg (fun e => Nat.lt_irrefl _ (ht.scheme _ e).1)]
    rfl
  have hcase : ∀ a < (RefCount.alloc h k).1.next, a = h.next ∨ (a < h.next ∧ a ≠ h.next) := by
    intro a ha
    have : a < h.next + 1 := ha
    omega
  constructor
  · refine ⟨?_, by simp, ?_, ?_, ?_⟩
    · intro a ha _
      rw [how]
      rcases hcase a ha with rfl | ⟨ha', hne⟩
      · simp [RefCount.alloc, inc, hnew, hH]
      · rw [hobj a ha']
        simp only [inc, hne, if_false]
        exact hi.cnt a ha' (by simp)
    · intro a ha _
      rcases hcase a ha with rfl | ⟨ha', hne⟩
      · simp [RefCount.alloc]
      · rw [hobj a ha']; exact hi.free a ha' (by simp)
    · intro a ha
      show a < h.next + 1
      rcases eq_or_ne a h.next with rfl | hne
      · omega
      · simp only [inc, hne, if_false] at ha
        have := hi.bound a ha; omega
    · intro a ha
      rcases hcase a ha with rfl | ⟨ha', hne⟩
      · exact ⟨by simp [RefCount.alloc], by simp [RefCount.alloc], by simp [RefCount.alloc], by simp [RefCount.alloc],
          by simp [RefCount.alloc], by simp [RefCount.alloc]⟩
      · rw [hobj a ha']
        refine (hi.typed a ha').mono (Nat.le_succ _) ?_
        intro b hb
        rw [hobj b hb]; exact ⟨rfl, id⟩
  · intro hk
    refine ⟨Nat.le_succ _, ?_, ?_, ?_⟩
    · intro p hp
      rw [hobj p hp]; exact ⟨rfl, rfl, rfl, rfl, rfl, fun h => ⟨h, rfl, rfl, rfl⟩⟩
    · intro p h1 h2
      have : p = h.next := by have : p < h.next + 1 := h2; omega
      subst this; simp [RefCount.alloc, hk]
    · intro p hp _
      rw [hobj p hp]; exact Or.inr rfl

end T8.RefCount
