/-
Descendants, order, nearest common ancestors, successors and families of prisms.
-/
import Verif.Lemmas.Prism
import Verif.Lemmas.SimplexFamily
import Verif.Props.Dline

namespace T8.RTree
variable {T : RTree} {N : Nat}

/-- An array of elements with consecutive positions that begins with a first child is a family. -/
theorem Regular.family_of_pos (hr : T.Regular N) {fam : List T.E} (hlen : fam.length = N) (hv : ∀ x ∈ fam, T.Valid x)
    {f0 : T.E} (hf0 : fam[0]? = some f0) (h0 : 0 < T.level f0) (hid : T.childId f0 = 0)
    (hpos : ∀ (k : Nat) (x : T.E), fam[k]? = some x → T.level x = T.level f0 ∧ pos x = pos f0 + k) :
    T.IsFamilyOf fam (T.parent f0) := by
  have vf := hv f0 (List.mem_of_getElem? hf0)
  have vp := T.valid_parent f0 vf h0
  have hml := T.level_le f0 vf
  have hpl := T.level_parent f0 vf h0
  refine ⟨vp, by omega, ?_⟩
  have hfp := hr.pos_parent vf h0
  rw [hr _ vp]
  apply List.ext_getElem?
  intro k
  by_cases hk : k < N
  · have hk' : k < fam.length := by omega
    have hx := List.getElem?_eq_getElem hk'
    obtain ⟨q1, q2⟩ := hpos k _ hx
    have vx := hv _ (List.getElem_mem hk')
    rw [hx, List.getElem?_map, List.getElem?_range hk, Option.map_some]
    congr 1
    have hk2 : k < T.nc (T.parent f0) := by rw [hr _ vp]; exact hk
    have hlc := T.level_child _ k vp (by omega) hk2
    refine hr.pos_inj vx (T.valid_child _ _ vp (by omega) hk2) (by omega) ?_
    rw [q2, hfp, hid, hr.pos_child vp (by omega) hk]
    omega
  · rw [List.getElem?_eq_none (by omega), List.getElem?_eq_none (by simp; omega)]

/-- A part of the leaves of a complete tree with elements of the same level has consecutive positions. -/
theorem Regular.segment_pos (hr : T.Regular N) {pre fam post : List T.E} (ht : T.Tiles T.root (pre ++ fam ++ post))
    (hlev : ∀ (k : Nat) (f g : T.E), fam[k]? = some f → fam[k + 1]? = some g → T.level f = T.level g) {f0 : T.E} (hf0 : fam[0]? = some f0) :
    ∀ (k : Nat) (x : T.E), fam[k]? = some x → T.level x = T.level f0 ∧ pos x = pos f0 + k := by
  have hpair : ∀ k f g, fam[k]? = some f → fam[k + 1]? = some g → T.level f = T.level g → pos g = pos f + 1 := by
    intro k f g hf hg hl
    have hk : k + 1 < fam.length := (List.getElem?_eq_some_iff.1 hg).1
    have hsplit : pre ++ fam ++ post = (pre ++ fam.take k) ++ f :: g :: (fam.drop (k + 2) ++ post) := by
      have e1 : fam = fam.take k ++ fam.drop k := (List.take_append_drop k fam).symm
      have e2 : fam.drop k = f :: g :: fam.drop (k + 2) := by
        rw [List.drop_eq_getElem_cons (by omega), List.drop_eq_getElem_cons hk]
        have a1 := (List.getElem?_eq_some_iff.1 hf).2
        have a2 := (List.getElem?_eq_some_iff.1 hg).2
        rw [a1, a2]
      conv_lhs => rw [e1, e2]
      simp
    rw [hsplit] at ht
    exact Tiles.pos_next hr ht hl
  intro k
  induction k with
  | zero => intro x hx; rw [hf0] at hx; cases hx; exact ⟨rfl, rfl⟩
  | succ k ih =>
    intro x hx
    have hk : k + 1 < fam.length := (List.getElem?_eq_some_iff.1 hx).1
    have hy := List.getElem?_eq_getElem (show k < fam.length by omega)
    obtain ⟨q1, q2⟩ := ih _ hy
    have hl := hlev k _ x hy hx
    exact ⟨hl ▸ q1, by rw [hpair k _ x hy hx hl, q2]; omega⟩

end T8.RTree

namespace T8.Prism
open T8.RTree T8.Bits
open T8.Simplex (Cls)

theorem tri_level {e : Prism} (he : Valid e) : e.1.level = e.2.level := he.2.2.1

/-! ### Descendants -/

theorem firstDescendant_spec {e : Prism} (he : Valid e) {L : Nat} (hl : e.2.level ≤ L) (hL : L ≤ maxLevel) :
    ∃ a, firstDescendant e L = some a ∧ Valid a ∧ a.2.level = L ∧
      pos (T := tree) a = pos (T := tree) e * 8 ^ (L - e.2.level) := by
  have hl1 : e.1.level ≤ L := by rw [tri_level he]; exact hl
  obtain ⟨a, h1, h2, h3, h4⟩ := Simplex.firstDescendant_spec he.1 hl1 (le_trans hL (by decide))
  obtain ⟨g1, g2⟩ := Dline.firstDescendant_pos he.2.1 hl (le_trans hL (by decide))
  have hv : Valid (a, Dline.firstDescendant e.2 L) := ⟨h2, g1, h3, hL⟩
  refine ⟨(a, Dline.firstDescendant e.2 L), by rw [firstDescendant, h1]; rfl, hv, rfl, ?_⟩
  replace h4 : pos (T := Simplex.tree .tri) a = pos (T := Simplex.tree .tri) e.1 * 2 ^ (2 * (L - e.1.level)) := h4
  rw [Nat.pow_mul, tri_level he] at h4
  rw [pos_eq hv, pos_eq he, g2, h4]
  have := mix_shift (p := 4) (q := 2) (by decide) (by decide) e.2.level (L - e.2.level)
    (pos (T := Simplex.tree .tri) e.1) (pos (T := Dline.tree) e.2)
  rw [show e.2.level + (L - e.2.level) = L by omega] at this
  exact this

theorem lastDescendant_spec {e : Prism} (he : Valid e) {L : Nat} (hl : e.2.level ≤ L) (hL : L ≤ maxLevel) :
    ∃ a, lastDescendant e L = some a ∧ Valid a ∧ a.2.level = L ∧
      pos (T := tree) a + 1 = (pos (T := tree) e + 1) * 8 ^ (L - e.2.level) := by
  have hl1 : e.1.level ≤ L := by rw [tri_level he]; exact hl
  obtain ⟨a, h1, h2, h3, h4⟩ := Simplex.lastDescendant_spec he.1 hl1 (le_trans hL (by decide))
  obtain ⟨g1, g2⟩ := Dline.lastDescendant_pos he.2.1 hl (le_trans hL (by decide))
  have hv : Valid (a, Dline.lastDescendant e.2 L) := ⟨h2, g1, h3, hL⟩
  refine ⟨(a, Dline.lastDescendant e.2 L), by rw [lastDescendant, h1]; rfl, hv, rfl, ?_⟩
  replace h4 : pos (T := Simplex.tree .tri) a + 1 = (pos (T := Simplex.tree .tri) e.1 + 1) * 2 ^ (2 * (L - e.1.level)) := h4
  rw [Nat.pow_mul, tri_level he] at h4
  have := mix_last (p := 4) (q := 2) (by decide) (by decide) e.2.level (L - e.2.level) _ _ _ _ h4 g2
  rw [show e.2.level + (L - e.2.level) = L by omega] at this
  rw [pos_eq hv, pos_eq he]
  exact this

theorem descendant_spec : tree.DescendantSpec (fun e L => (firstDescendant e L).getD e)
    (fun e L => (lastDescendant e L).getD e) := by
  refine regular.descendantSpec (fun e L he hl hL => ?_) (fun e L he hl hL => ?_)
  · obtain ⟨a, h1, h2, h3, h4⟩ := firstDescendant_spec he hl hL
    rw [h1]
    exact ⟨h2, h3, h4⟩
  · obtain ⟨a, h1, h2, h3, h4⟩ := lastDescendant_spec he hl hL
    rw [h1]
    exact ⟨h2, h3, h4⟩

/-! ### Order -/

theorem compare_spec : tree.CompareSpec compare := by
  apply compareSpec_of_lin linearId_spec
  intro x y _ _
  show (compare x y < 0 ↔ _) ∧ (compare x y = 0 ↔ _)
  rw [compare]
  have hinj : linearId x (max x.2.level y.2.level) = linearId y (max x.2.level y.2.level) ↔
      (linearId x (max x.2.level y.2.level)).toNat = (linearId y (max x.2.level y.2.level)).toNat := BitVec.toNat_inj.symm
  have hlt : linearId x (max x.2.level y.2.level) < linearId y (max x.2.level y.2.level) ↔
      (linearId x (max x.2.level y.2.level)).toNat < (linearId y (max x.2.level y.2.level)).toNat := Iff.rfl
  simp only [hinj, hlt]
  split
  · rename_i h
    rw [h]
    exact ⟨by constructor <;> intro _ <;> simp only [lt_irrefl, true_and, false_or] at * <;> omega,
      by constructor <;> intro _ <;> simp only [true_and] at * <;> omega⟩
  · rename_i h
    split
    · rename_i h2
      exact ⟨⟨fun _ => Or.inl h2, fun _ => by decide⟩, ⟨fun h' => absurd h' (by decide), fun h' => absurd h'.1 h⟩⟩
    · rename_i h2
      rw [if_pos (fun hh => h (hinj.1 hh))]
      refine ⟨⟨fun h' => absurd h' (by decide), ?_⟩, ⟨fun h' => absurd h' (by decide), fun h' => absurd h'.1 h⟩⟩
      rintro (h' | h')
      · exact absurd h' h2
      · exact absurd h'.1 h

theorem isAncestor_spec : tree.IsAncestorSpec isAncestor := Default.isAncestor_spec (T := tree) linearId_spec

theorem isEqual_iff (e f : Prism) : isEqual e f = true ↔ e = f := by
  rw [isEqual, Bool.and_eq_true, Simplex.isEqual_iff, Prod.ext_iff]
  have : Dline.isEqual e.2 f.2 = true ↔ e.2 = f.2 := by
    obtain ⟨_, x, l⟩ := e
    obtain ⟨_, y, m⟩ := f
    simp [Dline.isEqual, and_comm]
  rw [this, and_comm]

theorem ancestorId_eq {e : Prism} (he : Valid e) {l : Nat} (h0 : 0 < l) (hl : l ≤ e.2.level) :
    ancestorId e l = tree.childId (tree.anc e l) := by
  rw [ancestorId, Dline.ancestorId_eq he.2.1 h0 hl, Simplex.ancestorId_eq he.1 (by rw [tri_level he]; exact hl), anc_eq he]
  show _ = ((Simplex.childId .tri _ + 4 * (Dline.childId _).toNat : Nat) : Int)
  push_cast
  exact Int.add_comm _ _

/-! ### Nearest common ancestors -/

theorem nca_spec : tree.NcaSpec nca := by
  intro x y hx hy
  have hx' : Valid x := hx
  have hy' : Valid y := hy
  obtain ⟨t, t1, t2, t3, t4, t5⟩ := Simplex.nca_spec .tri x.1 y.1 hx'.1 hy'.1
  obtain ⟨l, l1, l2, l3, l4, l5⟩ := Dline.nca_spec x.2 y.2 hx'.2.1 hy'.2.1
  have t2' : Simplex.Valid .tri t := t2
  have l2' : Dline.Valid l := l2
  let m := min t.level l.level
  have ht : Simplex.ancestor .tri t m = some ((Simplex.tree .tri).anc t m) := Simplex.ancestor_eq t2' (Nat.min_le_left _ _)
  have hll : Dline.ancestor l m = Dline.tree.anc l m := Dline.ancestor_eq l2' (Nat.min_le_right _ _)
  have hlt : ((Simplex.tree .tri).anc t m).level = m := level_anc (T := Simplex.tree .tri) t2 (Nat.min_le_left _ _)
  have hlv : (Dline.tree.anc l m).level = m := level_anc (T := Dline.tree) l2 (Nat.min_le_right _ _)
  have hlx : l.level ≤ x.2.level := l3.level_le (T := Dline.tree) l2
  have hm : m ≤ maxLevel := le_trans (le_trans (Nat.min_le_right _ _) hlx) hx'.2.2.2
  have hv : Valid ((Simplex.tree .tri).anc t m, Dline.tree.anc l m) :=
    ⟨valid_anc (T := Simplex.tree .tri) t2 m, valid_anc (T := Dline.tree) l2 m, by
      show ((Simplex.tree .tri).anc t m).level = (Dline.tree.anc l m).level
      rw [hlt, hlv], by show (Dline.tree.anc l m).level ≤ _; rw [hlv]; exact hm⟩
  have dt : (Simplex.tree .tri).Desc ((Simplex.tree .tri).anc t m) t := desc_anc (T := Simplex.tree .tri) t2
  have dl : Dline.tree.Desc (Dline.tree.anc l m) l := desc_anc (T := Dline.tree) l2
  refine ⟨((Simplex.tree .tri).anc t m, Dline.tree.anc l m), ?_, hv, ?_, ?_, ?_⟩
  · rw [nca, t1, l1]
    simp only [Option.bind_eq_bind, Option.bind_some]
    split
    · split
      · rename_i h1 h2
        have : m = l.level := Nat.min_eq_right (le_of_lt h2)
        rw [show min t.level l.level = m from rfl, ht, this]
        simp only [Option.bind_some]
        rw [show Dline.tree.anc l l.level = l from anc_of_level_le (T := Dline.tree) (le_refl _)]
      · rename_i h1 h2
        have : m = t.level := Nat.min_eq_left (by omega)
        rw [show min t.level l.level = m from rfl, hll, this]
        rw [show (Simplex.tree .tri).anc t t.level = t from anc_of_level_le (T := Simplex.tree .tri) (le_refl _)]
    · rename_i h1
      have h1 : t.level = l.level := by omega
      have m1 : m = t.level := Nat.min_eq_left (by omega)
      have m2 : m = l.level := by omega
      rw [show (Simplex.tree .tri).anc t m = t from anc_of_level_le (T := Simplex.tree .tri) (le_of_eq m1.symm),
        show Dline.tree.anc l m = l from anc_of_level_le (T := Dline.tree) (le_of_eq m2.symm)]
  · exact (prod_desc_iff (A := Simplex.tree .tri) (B := Dline.tree) hv hx).2 ⟨dt.trans t3, dl.trans l3⟩
  · exact (prod_desc_iff (A := Simplex.tree .tri) (B := Dline.tree) hv hy).2 ⟨dt.trans t4, dl.trans l4⟩
  · intro b hb b1 b2
    have hb' : Valid b := hb
    obtain ⟨c1, c2⟩ := (prod_desc_iff (A := Simplex.tree .tri) (B := Dline.tree) hb hx).1 b1
    obtain ⟨d1, d2⟩ := (prod_desc_iff (A := Simplex.tree .tri) (B := Dline.tree) hb hy).1 b2
    have e1 := t5 _ hb'.1 c1 d1
    have e2 := l5 _ hb'.2.1 c2 d2
    have f1 : b.1.level ≤ t.level := e1.level_le (T := Simplex.tree .tri) hb'.1
    have f2 : b.2.level ≤ l.level := e2.level_le (T := Dline.tree) hb'.2.1
    have f3 := tri_level hb'
    have f4 : b.1.level ≤ m := by omega
    have f5 : b.2.level ≤ m := by omega
    refine (prod_desc_iff (A := Simplex.tree .tri) (B := Dline.tree) hb hv).2 ⟨?_, ?_⟩
    · refine (RTree.desc_iff (T := Simplex.tree .tri) hb'.1 hv.1).2 ⟨f4.trans (le_of_eq hlt.symm), ?_⟩
      rw [anc_anc (T := Simplex.tree .tri) t2 f4 (Nat.min_le_left _ _)]
      exact e1.anc_eq (T := Simplex.tree .tri) hb'.1
    · refine (RTree.desc_iff (T := Dline.tree) hb'.2.1 hv.2.1).2 ⟨f5.trans (le_of_eq hlv.symm), ?_⟩
      rw [anc_anc (T := Dline.tree) l2 f5 (Nat.min_le_right _ _)]
      exact e2.anc_eq (T := Dline.tree) hb'.2.1

/-! ### Successors -/

theorem tri_child_zero (e : Simplex.Elem 2) (ht : e.type < 2) :
    Simplex.child .tri e 0 = ⟨e.x, e.level + 1, e.type⟩ := by
  have hb : ∀ t < 2, Simplex.look (Simplex.indexToBeyNumber .tri) t 0 = 0 ∧ Simplex.look (Simplex.typeOfChild .tri) t 0 = t := by
    decide +kernel
  obtain ⟨b1, b2⟩ := hb e.type ht
  rw [Simplex.child]
  simp only [b1, b2, if_true]

theorem tri_child_three : ∀ t < 2, Simplex.typeOf .tri t 3 = t := by decide +kernel

/-- The child number of an ancestor of a line, read off the line. -/
theorem line_childId {e : Dline.Line} (he : Dline.Valid e) {l : Nat} (hl : l ≤ e.level) :
    Dline.childId { e with level := l } = (e.x.toNat / 2 ^ (30 - l) % 2 : Nat) := by
  have h31 : e.x.toNat < 2 ^ 31 := lt_trans he.2.1 (by decide)
  have h1 : (e.x.sshiftRight (30 - l) &&& 1).toNat = e.x.toNat / 2 ^ (30 - l) % 2 := by
    rw [BitVec.toNat_and, toNat_shift _ h31]
    exact Nat.and_one_is_mod _
  rw [Dline.childId]
  show (e.x.sshiftRight (30 - l) &&& 1).toInt = _
  rw [toInt_eq _ (by rw [h1]; omega), h1]

theorem line_pos_anc {e : Dline.Line} (he : Dline.Valid e) {l : Nat} (hl : l ≤ e.level) :
    pos (T := Dline.tree) (Dline.tree.anc e l) = e.x.toNat / 2 ^ (30 - l) := by
  rw [Dline.regular.pos_anc he hl, Dline.pos_eq e he, Nat.div_div_eq_div_mul, ← Nat.pow_add]
  congr 2
  have : e.level ≤ 30 := he.1
  show 30 - e.level + (e.level - l) = _
  omega

theorem zeroBits_getLsbD (x : BitVec 32) (n k : Nat) (hk : k < 32) :
    (zeroBits x n).getLsbD k = (x.getLsbD k && decide (n ≤ k)) := by
  rw [zeroBits, BitVec.getLsbD_shiftLeft, BitVec.getLsbD_sshiftRight]
  by_cases h : n ≤ k
  · have h1 : n + (k - n) = k := by omega
    have h2 : k - n < 32 := by omega
    have h3 : ¬ k < n := by omega
    simp [h, hk, h1, h2, h3]
  · have h3 : k < n := by omega
    simp [h, h3]

theorem zeroBits_toNat (x : BitVec 32) (n : Nat) (hx : x.toNat < 2 ^ 31) : (zeroBits x n).toNat = x.toNat / 2 ^ n * 2 ^ n := by
  rw [zeroBits, BitVec.toNat_shiftLeft, toNat_shift _ hx, Nat.shiftLeft_eq, Nat.mod_eq_of_lt]
  exact lt_of_le_of_lt (Nat.div_mul_le_self _ _) (by omega)

/-- `s` agrees with the element `S` down to its level, and the bits below the level `m` are 0. -/
def Agrees (m : Nat) (S s : Prism) : Prop :=
  s.1.level = S.1.level ∧ s.1.type = S.1.type ∧ s.2.level = S.2.level ∧
  (∀ i k, (29 - S.1.level ≤ k → (s.1.x i).getLsbD k = (S.1.x i).getLsbD k) ∧
    (k < 29 - m → (s.1.x i).getLsbD k = false)) ∧
  s.2.x.toNat / 2 ^ (30 - S.2.level) = pos (T := Dline.tree) S.2 ∧ 2 ^ (30 - m) ∣ s.2.x.toNat

theorem agrees_eq {S s : Prism} (hS : Valid S) (h : Agrees S.2.level S s) : s = S := by
  obtain ⟨h1, h2, h3, h4, h5, h6⟩ := h
  have e1 : s.1 = S.1 := by
    refine Simplex.Elem.ext' (Standalone.Elem.ext' (fun i => ?_) h1) h2
    apply BitVec.eq_of_getLsbD_eq
    intro k _
    show (s.1.x i).getLsbD k = (S.1.x i).getLsbD k
    rcases Nat.lt_or_ge k (29 - S.1.level) with hk | hk
    · rw [(h4 i k).2 (by rw [← tri_level hS]; exact hk)]
      by_contra hc
      have := Simplex.bits (c := .tri) hS.1 i k (Bool.eq_true_of_not_eq_false fun h => hc h.symm)
      have h' : 29 - S.1.level ≤ k := this.1
      omega
    · exact (h4 i k).1 hk
  have e2 : s.2 = S.2 := by
    have hx : s.2.x = S.2.x := by
      apply BitVec.eq_of_toNat_eq
      rw [Dline.x_eq hS.2.1, ← h5, Nat.div_mul_cancel h6]
    obtain ⟨_, x, l⟩ := s
    obtain ⟨_, y, m⟩ := S
    simp only at hx h3
    rw [hx, h3]
  exact Prod.ext e1 e2

theorem agrees_self {S : Prism} (hS : Valid S) {m : Nat} (hm : S.2.level ≤ m) : Agrees m S S := by
  refine ⟨rfl, rfl, rfl, fun i k => ⟨fun _ => rfl, fun hk => ?_⟩, ?_, ?_⟩
  · by_contra hc
    have := (Simplex.bits (c := .tri) hS.1 i k (by simpa using hc)).1
    have h' : 29 - S.1.level ≤ k := this
    have := tri_level hS
    omega
  · exact (Dline.pos_eq _ hS.2.1).symm
  · exact dvd_trans (pow_dvd (show 30 - m ≤ 30 - S.2.level by omega)) hS.2.1.2.2

theorem successor_agrees {e : Prism} (he : Valid e) : ∀ l ≤ e.2.level,
    pos (T := tree) (tree.anc e l) + 1 < 8 ^ l → e.1.type = ((Simplex.tree .tri).anc e.1 l).type →
    ∃ s S, successor e l = some s ∧ Valid S ∧ S.2.level = l ∧ pos (T := tree) S = pos (T := tree) (tree.anc e l) + 1 ∧
      Agrees e.2.level S s := by
  have hem : e.2.level ≤ 21 := he.2.2.2
  have htl := tri_level he
  intro l
  induction l with
  | zero => intro _ h; simp at h
  | succ l ih =>
    intro hl hlt hty
    have hA : Valid (tree.anc e l) := valid_anc (T := tree) he _
    have hAl : (tree.anc e l).2.level = l := level_anc (T := tree) he (by show l ≤ e.2.level; omega)
    have hAl1 : (tree.anc e l).1.level = l := by rw [tri_level hA, hAl]
    have hA1 : (tree.anc e l).1 = (Simplex.tree .tri).anc e.1 l := by rw [anc_eq he]
    have hA2 : (tree.anc e l).2 = Dline.tree.anc e.2 l := by rw [anc_eq he]
    have hB : Valid (tree.anc e (l + 1)) := valid_anc (T := tree) he _
    have hBl : (tree.anc e (l + 1)).2.level = l + 1 := level_anc (T := tree) he hl
    have hpar : tree.parent (tree.anc e (l + 1)) = tree.anc e l := parent_anc (T := tree) hl
    have hpos : pos (T := tree) (tree.anc e (l + 1)) = pos (T := tree) (tree.anc e l) * 8 + tree.childId (tree.anc e (l + 1)) := by
      rw [← hpar]
      exact regular.pos_parent hB (by show 0 < (tree.anc e (l + 1)).2.level; omega)
    -- the child numbers of the factors
    have hid1 : Simplex.childId .tri { e.1 with level := l + 1 } = Simplex.childId .tri ((Simplex.tree .tri).anc e.1 (l + 1)) := by
      have h1 := Simplex.childId_anc he.1 (l := l + 1) (by omega)
      rw [← h1, ← hty]
      rfl
    have hid2 : Dline.childId { e.2 with level := l + 1 } = Dline.childId (Dline.tree.anc e.2 (l + 1)) := by
      rw [line_childId he.2.1 hl, Dline.childId_nonneg_lt (valid_anc (T := Dline.tree) he.2.1 _)]
      have h1 := line_pos_anc he.2.1 hl
      rw [Dline.pos_eq _ (valid_anc (T := Dline.tree) he.2.1 _)] at h1
      rw [h1]
    generalize ht : Simplex.childId .tri ((Simplex.tree .tri).anc e.1 (l + 1)) = t at hid1
    have hn := Dline.childId_nat (valid_anc (T := Dline.tree) he.2.1 (l + 1))
    generalize hd : (Dline.childId (Dline.tree.anc e.2 (l + 1))).toNat = d at hn
    have hcid : tree.childId (tree.anc e (l + 1)) = t + 4 * d := by
      rw [anc_eq he, ← ht, ← hd]
    have htl4 : t < 4 := by rw [← ht]; exact Simplex.childId_lt (valid_anc (T := Simplex.tree .tri) he.1 _).aligned
    have hdl2 : d < 2 := by
      rw [← hd]
      exact Dline.tree.childId_lt _ (valid_anc (T := Dline.tree) he.2.1 _) (by
        rw [level_anc (T := Dline.tree) he.2.1 hl]; omega)
    have hline : pos (T := Dline.tree) (Dline.tree.anc e.2 (l + 1)) = pos (T := Dline.tree) (Dline.tree.anc e.2 l) * 2 + d := by
      have h1 : Dline.tree.parent (Dline.tree.anc e.2 (l + 1)) = Dline.tree.anc e.2 l := parent_anc (T := Dline.tree) hl
      rw [← h1, ← hd]
      exact Dline.regular.pos_parent (valid_anc (T := Dline.tree) he.2.1 _) (by
        rw [level_anc (T := Dline.tree) he.2.1 hl]; omega)
    have htri : pos (T := Simplex.tree .tri) ((Simplex.tree .tri).anc e.1 (l + 1)) =
        pos (T := Simplex.tree .tri) ((Simplex.tree .tri).anc e.1 l) * 4 + t := by
      rw [← ht]
      exact Simplex.pos_anc_succ he.1 (by omega)
    have hcs : childId ({ e.1 with level := l + 1 }, { e.2 with level := l + 1 }) = (t + 4 * d : Nat) := by
      rw [childId]
      show (Simplex.childId .tri { e.1 with level := l + 1 } : Int) + 4 * Dline.childId { e.2 with level := l + 1 } = _
      rw [hid1, hid2, ← hn]
      push_cast
      ring
    have hstep := Simplex.anc_type_step he.1 (l := l) (by omega)
    have htA : (tree.anc e l).1.type < 2 := hA.1.2.1
    rw [successor]
    simp only [Option.bind_eq_bind]
    rw [assertO_true (by show l + 1 ≤ 21; omega), Option.bind_some, hcs]
    have hch : ∀ j, t + 4 * d + 1 = j → j < 8 → Valid (child (tree.anc e l) j) ∧ (child (tree.anc e l) j).2.level = l + 1 ∧
        pos (T := tree) (child (tree.anc e l) j) = pos (T := tree) (tree.anc e (l + 1)) + 1 := by
      intro j hj h8
      refine ⟨valid_child hA (by show _ < 21; omega) h8, by show (tree.anc e l).2.level + 1 = _; omega, ?_⟩
      have := regular.pos_child (e := tree.anc e l) hA (by show (tree.anc e l).2.level < 21; omega) (i := j) h8
      rw [hpos, hcid]
      refine this.trans ?_
      omega
    by_cases h7 : t + 4 * d = 7
    · have ht3 : t = 3 := by omega
      have hmul : pos (T := tree) (tree.anc e (l + 1)) + 1 = (pos (T := tree) (tree.anc e l) + 1) * 8 := by omega
      have hty' : e.1.type = ((Simplex.tree .tri).anc e.1 l).type := by
        have h1 := (anc_succ_eq_child (T := Simplex.tree .tri) he.1 (show l < e.1.level by omega)).2
        have h2 : (Simplex.tree .tri).childId ((Simplex.tree .tri).anc e.1 (l + 1)) = 3 := by rw [← ht3, ← ht]
        rw [h2] at h1
        rw [hty, h1]
        rw [hA1] at htA
        exact tri_child_three _ htA
      obtain ⟨s, S, q1, q2, q3, q4, a1, a2, a3, a4, a5, a6⟩ := ih (by omega) (by
        rw [hmul, Nat.pow_succ] at hlt
        exact Nat.lt_of_mul_lt_mul_right hlt) hty'
      have htS := tri_level q2
      rw [if_pos (by rw [h7]; rfl), q1]
      simp only [Option.bind_some]
      have hv := valid_child q2 (by show S.2.level < 21; omega) (i := 0) (by decide)
      have hzx : ∀ i, zeroBits (s.1.x i) (29 - (l + 1) + 1) = S.1.x i := by
        intro i
        apply BitVec.eq_of_getLsbD_eq
        intro k hk
        rw [zeroBits_getLsbD _ _ _ hk]
        rcases Nat.lt_or_ge k (29 - l) with h | h
        · have h1 : ¬ 29 - (l + 1) + 1 ≤ k := by omega
          have h2 : (S.1.x i).getLsbD k = false := by
            by_contra hc
            have := (Simplex.bits (c := .tri) q2.1 i k (by simpa using hc)).1
            have h' : 29 - S.1.level ≤ k := this
            omega
          rw [decide_eq_false h1, Bool.and_false, h2]
        · have h1 : 29 - (l + 1) + 1 ≤ k := by omega
          rw [(a4 i k).1 (by omega), decide_eq_true h1, Bool.and_true]
      have hzy : zeroBits s.2.x (30 - (l + 1) + 1) = S.2.x := by
        have hn1 : 30 - (l + 1) + 1 = 30 - l := by omega
        have hx31 : s.2.x.toNat < 2 ^ 31 := by
          have h1 : pos (T := Dline.tree) S.2 < 2 ^ S.2.level := Dline.regular.pos_lt q2.2.1
          rw [← a5, Nat.div_lt_iff_lt_mul (Nat.two_pow_pos _), ← Nat.pow_add] at h1
          exact lt_of_lt_of_le h1 (Nat.pow_le_pow_right (by omega) (by omega))
        apply BitVec.eq_of_toNat_eq
        rw [zeroBits_toNat _ _ hx31, hn1, Dline.x_eq q2.2.1, ← a5, q3]
      have hres : (⟨⟨fun i => zeroBits (s.1.x i) (Cls.tri.maxLevel - (l + 1) + 1), l + 1, s.1.type⟩,
          ⟨zeroBits s.2.x (Dline.maxLevel - (l + 1) + 1), l + 1⟩⟩ : Prism) = child S 0 := by
        have e1 : (fun i => zeroBits (s.1.x i) (Cls.tri.maxLevel - (l + 1) + 1)) = S.1.x := funext hzx
        have e2 : zeroBits s.2.x (Dline.maxLevel - (l + 1) + 1) = S.2.x := hzy
        rw [e1, e2, a2, child]
        refine Prod.ext ?_ ?_
        · show _ = Simplex.child .tri S.1 0
          rw [tri_child_zero _ q2.1.2.1, htS, q3]
        · show _ = Dline.child S.2 0
          rw [Dline.child, q3]
          simp
      rw [hres]
      refine ⟨_, child S 0, rfl, hv, by show S.2.level + 1 = _; omega, ?_, agrees_self hv (by
        show S.2.level + 1 ≤ _; omega)⟩
      have := regular.pos_child (e := S) q2 (by show S.2.level < 21; omega) (i := 0) (by decide)
      refine this.trans ?_
      rw [q4, hmul]
      rfl
    · rw [if_neg (by omega)]
      obtain ⟨c1, c2, c3⟩ := hch _ rfl (by omega)
      by_cases h3 : t = 3
      · have hd0 : d = 0 := by omega
        subst h3 hd0
        rw [if_pos (by decide)]
        refine ⟨_, child (tree.anc e l) 4, rfl, c1, c2, c3, ?_⟩
        have hS1 : (child (tree.anc e l) 4).1 = ⟨(tree.anc e l).1.x, l + 1, (tree.anc e l).1.type⟩ := by
          show Simplex.child .tri (tree.anc e l).1 0 = _
          rw [tri_child_zero _ htA, hAl1]
        have hS2 : pos (T := Dline.tree) (child (tree.anc e l) 4).2 = pos (T := Dline.tree) (Dline.tree.anc e.2 l) * 2 + 1 := by
          show pos (T := Dline.tree) (Dline.child (tree.anc e l).2 1) = _
          rw [hA2]
          exact Dline.regular.pos_child (e := Dline.tree.anc e.2 l) (valid_anc (T := Dline.tree) he.2.1 _) (by
            rw [level_anc (T := Dline.tree) he.2.1 (show l ≤ e.2.level by omega)]; show l < 30; omega) (by decide)
        have hptype : (Simplex.parent .tri { e.1 with level := l + 1 }).type = (tree.anc e l).1.type := by
          rw [hA1, ← hstep, ← hty]
          rfl
        have hs1 : (child (parent ({ e.1 with level := l + 1 }, { e.2 with level := l + 1 }))
            (((3 + 4 * 0 : Nat) : Int) + 1).toNat).1 =
            ⟨fun i => e.1.x i &&& ~~~(Simplex.len .tri (l + 1)), l + 1, (tree.anc e l).1.type⟩ := by
          show Simplex.child .tri (Simplex.parent .tri { e.1 with level := l + 1 }) 0 = _
          rw [tri_child_zero _ (by rw [hptype]; exact htA), hptype]
          rfl
        have hs2 : (child (parent ({ e.1 with level := l + 1 }, { e.2 with level := l + 1 }))
            (((3 + 4 * 0 : Nat) : Int) + 1).toNat).2 =
            ⟨(e.2.x &&& ~~~(Dline.len (l + 1))) + Dline.len (l + 1), l + 1⟩ := rfl
        have hbit : e.2.x.toNat / 2 ^ (30 - (l + 1)) % 2 = 0 := by
          have := line_childId he.2.1 hl
          rw [hid2, ← hn] at this
          exact_mod_cast this.symm
        have hclear : e.2.x &&& ~~~(Dline.len (l + 1)) = e.2.x := by
          apply BitVec.eq_of_getLsbD_eq
          intro k hk
          rw [BitVec.getLsbD_and, BitVec.getLsbD_not, Dline.len, BitVec.getLsbD_twoPow]
          by_cases hk2 : 30 - (l + 1) = k
          · have : e.2.x.getLsbD k = false := by
              rw [← BitVec.testBit_toNat, ← hk2]
              rw [show 30 - (l + 1) = 0 + (30 - (l + 1)) by omega, ← Nat.testBit_div_two_pow, Nat.testBit_zero, hbit]
              rfl
            simp [this]
          · have : ¬ (Dline.maxLevel - (l + 1) = k) := hk2
            simp [hk, this]
        have hxlt : e.2.x.toNat < 2 ^ 30 := he.2.1.2.1
        have hlen : (Dline.len (l + 1)).toNat = 2 ^ (30 - (l + 1)) := Dline.len_toNat
        have hle : 2 ^ (30 - (l + 1)) ≤ 2 ^ 30 := Nat.pow_le_pow_right (by omega) (by omega)
        have hsum : ((e.2.x &&& ~~~(Dline.len (l + 1))) + Dline.len (l + 1)).toNat = e.2.x.toNat + 2 ^ (30 - (l + 1)) := by
          rw [hclear, BitVec.toNat_add, hlen]
          exact Nat.mod_eq_of_lt (by clear * - hxlt hle; omega)
        refine ⟨by rw [hs1, hS1], by rw [hs1, hS1], by rw [hs2]; exact c2.symm, fun i k => ?_, ?_, ?_⟩
        · rw [hs1, hS1]
          have hget : (e.1.x i &&& ~~~(Simplex.len .tri (l + 1))).getLsbD k =
              ((e.1.x i).getLsbD k && !decide (29 - (l + 1) = k)) := by
            rw [BitVec.getLsbD_and, BitVec.getLsbD_not, Simplex.len, BitVec.getLsbD_twoPow]
            by_cases hk : k < 32
            · have h1 : decide (29 - (l + 1) < 32) = true := decide_eq_true (by omega)
              show ((e.1.x i).getLsbD k && (decide (k < 32) && !(decide (29 - (l + 1) < 32) && decide (29 - (l + 1) = k)))) = _
              rw [decide_eq_true hk, h1, Bool.true_and, Bool.true_and]
            · have : (e.1.x i).getLsbD k = false := BitVec.getLsbD_of_ge _ _ (by omega)
              simp [this]
          constructor
          · intro hk
            have hk' : 29 - (l + 1) ≤ k := hk
            show (e.1.x i &&& ~~~(Simplex.len .tri (l + 1))).getLsbD k = ((tree.anc e l).1.x i).getLsbD k
            rw [hget, hA1, Simplex.anc_bit (c := .tri) he.1 (by omega)]
            show _ = ((e.1.x i).getLsbD k && decide (29 - l ≤ k))
            by_cases h : 29 - (l + 1) = k
            · rw [decide_eq_true h, decide_eq_false (show ¬ 29 - l ≤ k by omega), Bool.not_true]
            · rw [decide_eq_false h, decide_eq_true (show 29 - l ≤ k by omega), Bool.not_false]
          · intro hk
            show (e.1.x i &&& ~~~(Simplex.len .tri (l + 1))).getLsbD k = false
            rw [hget]
            have : (e.1.x i).getLsbD k = false := by
              by_contra hc
              have := (Simplex.bits (c := .tri) he.1 i k (by simpa using hc)).1
              have h' : 29 - e.1.level ≤ k := this
              omega
            simp [this]
        · rw [hs2, hS2, c2]
          show ((e.2.x &&& ~~~(Dline.len (l + 1))) + Dline.len (l + 1)).toNat / _ = _
          rw [hsum, Nat.add_div_right _ (Nat.two_pow_pos _), ← line_pos_anc he.2.1 hl, hline]
        · rw [hs2]
          show _ ∣ ((e.2.x &&& ~~~(Dline.len (l + 1))) + Dline.len (l + 1)).toNat
          rw [hsum]
          exact Nat.dvd_add he.2.1.2.2 (pow_dvd (by omega))
      · rw [if_neg (by omega)]
        have hP : pos (T := Simplex.tree .tri) ((Simplex.tree .tri).anc e.1 l) < 4 ^ l := by
          have := regular_tri.pos_lt (valid_anc (T := Simplex.tree .tri) he.1 l)
          rw [level_anc (T := Simplex.tree .tri) he.1 (show l ≤ e.1.level by omega)] at this
          exact this
        obtain ⟨s, S1, q1, q2, q3, q4, u1, u2, u3⟩ := Simplex.succPred_spec he.1 (l + 1) (by omega) (by
          rw [htri]
          show _ < 4 ^ (l + 1)
          rw [Nat.pow_succ]
          omega)
        have q1' : Simplex.successor .tri e.1 (l + 1) = some s := q1
        rw [q1']
        simp only [Option.bind_some]
        refine ⟨_, child (tree.anc e l) (t + 4 * d + 1), rfl, c1, c2, c3, ?_⟩
        have m1 : (t + 4 * d + 1) % 4 = t + 1 := by omega
        have m2 : (t + 4 * d + 1) / 4 = d := by omega
        have hS1 : (child (tree.anc e l) (t + 4 * d + 1)).1 = S1 := by
          refine regular_tri.pos_inj c1.1 q2 ?_ ?_
          · show (child (tree.anc e l) (t + 4 * d + 1)).1.level = S1.level
            rw [q3, tri_level c1, c2]
          · rw [q4, htri]
            show pos (T := Simplex.tree .tri) (Simplex.child .tri (tree.anc e l).1 ((t + 4 * d + 1) % 4)) = _
            rw [m1, hA1]
            exact regular_tri.pos_child (e := (Simplex.tree .tri).anc e.1 l) (valid_anc (T := Simplex.tree .tri) he.1 _) (by
              rw [level_anc (T := Simplex.tree .tri) he.1 (show l ≤ e.1.level by omega)]; show l < 29; omega) (by omega)
        have hS2 : (child (tree.anc e l) (t + 4 * d + 1)).2 = Dline.tree.anc e.2 (l + 1) := by
          show Dline.child (tree.anc e l).2 ((t + 4 * d + 1) / 4) = _
          rw [m2, hA2, ← hd]
          exact ((anc_succ_eq_child (T := Dline.tree) he.2.1 (show l < e.2.level by omega)).2).symm
        refine ⟨by rw [hS1]; exact u1, by rw [hS1]; exact u2, c2.symm, fun i k => ?_, ?_, ?_⟩
        · rw [hS1]
          have hu : (s.x i).getLsbD k = if 29 - S1.level ≤ k then (S1.x i).getLsbD k else (e.1.x i).getLsbD k := u3 i k
          refine ⟨fun hk => ?_, fun hk => ?_⟩
          · show (s.x i).getLsbD k = _
            rw [hu, if_pos hk]
          · show (s.x i).getLsbD k = _
            rw [hu, if_neg (by rw [q3]; omega)]
            by_contra hc
            have := (Simplex.bits (c := .tri) he.1 i k (by simpa using hc)).1
            have h' : 29 - e.1.level ≤ k := this
            omega
        · rw [hS2, line_pos_anc he.2.1 hl]
          show e.2.x.toNat / 2 ^ (30 - (Dline.tree.anc e.2 (l + 1)).level) = _
          rw [show (Dline.tree.anc e.2 (l + 1)).level = l + 1 from level_anc (T := Dline.tree) he.2.1 hl]
        · exact he.2.1.2.2

theorem successor_spec : tree.SuccessorSpec (fun e => successor e e.2.level) := by
  refine regular.successorSpec fun e he hlt => ?_
  have he' : Valid e := he
  have hself : tree.anc e e.2.level = e := anc_of_level_le (T := tree) (le_refl _)
  obtain ⟨s, S, h1, h2, h3, h4, h5⟩ := successor_agrees he' e.2.level (le_refl _) (by rw [hself]; exact hlt) (by
    rw [← tri_level he', Simplex.anc_self (c := .tri)])
  rw [hself] at h4
  rw [← h3] at h5
  have := agrees_eq h2 h5
  subst this
  exact ⟨s, h1, h2, h3, h4⟩

/-! ### Families -/

theorem length_eight {α : Type} {l : List α} (h : l.length = 8) :
    ∃ a0 a1 a2 a3 a4 a5 a6 a7, l = [a0, a1, a2, a3, a4, a5, a6, a7] := by
  match l, h with
  | [a0, a1, a2, a3, a4, a5, a6, a7], _ => exact ⟨a0, a1, a2, a3, a4, a5, a6, a7, rfl⟩

/-- The test of a pair in `isFamily`. -/
def pairTest (p q : Prism) (l : Bool) : Bool :=
  l && p.1.level == q.1.level && p.1.type == q.1.type && p.1.x 0 == q.1.x 0 && p.1.x 1 == q.1.x 1

theorem isFamily_eq {f0 f1 f2 f3 f4 f5 f6 f7 : Prism} {t0 t1 l0 l1 l2 l3 : Bool}
    (ht0 : Simplex.isFamily .tri [f0.1, f1.1, f2.1, f3.1] = some t0)
    (ht1 : Simplex.isFamily .tri [f4.1, f5.1, f6.1, f7.1] = some t1)
    (hl0 : Dline.isFamily [f0.2, f4.2] = some l0) (hl1 : Dline.isFamily [f1.2, f5.2] = some l1)
    (hl2 : Dline.isFamily [f2.2, f6.2] = some l2) (hl3 : Dline.isFamily [f3.2, f7.2] = some l3) :
    isFamily [f0, f1, f2, f3, f4, f5, f6, f7] = some (t0 && t1 &&
      [pairTest f0 f4 l0, pairTest f1 f5 l1, pairTest f2 f6 l2, pairTest f3 f7 l3].all id &&
      [f0, f1, f2, f3, f4, f5, f6, f7].all (fun p => p.2.level == p.1.level)) := by
  have hr : (List.range 8).mapM (fun i => [f0, f1, f2, f3, f4, f5, f6, f7][i]?) =
      some [f0, f1, f2, f3, f4, f5, f6, f7] := rfl
  have hr4 : List.range 4 = [0, 1, 2, 3] := rfl
  rw [isFamily, hr]
  simp only [Option.bind_eq_bind, Option.bind_some]
  have e0 : (List.map Prod.fst [f0, f1, f2, f3, f4, f5, f6, f7]).take 4 = [f0.1, f1.1, f2.1, f3.1] := rfl
  have e1 : (List.map Prod.fst [f0, f1, f2, f3, f4, f5, f6, f7]).drop 4 = [f4.1, f5.1, f6.1, f7.1] := rfl
  rw [e0, e1, ht0, ht1]
  simp only [Option.bind_some, hr4, List.mapM_cons, List.mapM_nil, List.getElem?_cons_zero, List.getElem?_cons_succ,
    hl0, hl1, hl2, hl3, Option.pure_def, Option.bind_eq_bind, Nat.reduceAdd]
  cases t0
  · rfl
  · cases t1
    · rfl
    · show (if (![pairTest f0 f4 l0, pairTest f1 f5 l1, pairTest f2 f6 l2, pairTest f3 f7 l3].all id) = true then _ else _) = _
      cases [pairTest f0 f4 l0, pairTest f1 f5 l1, pairTest f2 f6 l2, pairTest f3 f7 l3].all id <;> rfl

theorem isFamily_some {fam : List Prism} (h : fam.length = 8) : ∃ b, isFamily fam = some b := by
  obtain ⟨f0, f1, f2, f3, f4, f5, f6, f7, rfl⟩ := length_eight h
  have hl : ∀ a b : Dline.Line, ∃ r, Dline.isFamily [a, b] = some r := by
    intro a b
    simp only [Dline.isFamily, List.getElem?_cons_zero, List.getElem?_cons_succ, Option.bind_eq_bind, Option.bind_some]
    split
    · exact ⟨_, rfl⟩
    · split <;> exact ⟨_, rfl⟩
  obtain ⟨_, ht0⟩ := Simplex.isFamily_some (c := .tri) (fam := [f0.1, f1.1, f2.1, f3.1]) rfl
  obtain ⟨_, ht1⟩ := Simplex.isFamily_some (c := .tri) (fam := [f4.1, f5.1, f6.1, f7.1]) rfl
  obtain ⟨_, h0⟩ := hl f0.2 f4.2
  obtain ⟨_, h1⟩ := hl f1.2 f5.2
  obtain ⟨_, h2⟩ := hl f2.2 f6.2
  obtain ⟨_, h3⟩ := hl f3.2 f7.2
  exact ⟨_, isFamily_eq ht0 ht1 h0 h1 h2 h3⟩

theorem isFamily_children {p : Prism} (hp : Valid p) (hl : p.2.level < maxLevel) :
    isFamily ((List.range 8).map (child p)) = some true := by
  have htl := tri_level hp
  have ht : Simplex.isFamily .tri [Simplex.child .tri p.1 0, Simplex.child .tri p.1 1, Simplex.child .tri p.1 2,
      Simplex.child .tri p.1 3] = some true :=
    Simplex.isFamily_children hp.1 (by rw [htl]; exact lt_trans hl (by decide))
  have hl1 : p.2.level < Dline.maxLevel := lt_trans hl (by decide)
  have hd : Dline.isFamily [Dline.child p.2 0, Dline.child p.2 1] = some true := by
    obtain ⟨b, h1, h2⟩ := Dline.C06_line [Dline.child p.2 0, Dline.child p.2 1] rfl (by
      intro x hx
      simp only [List.mem_cons, List.not_mem_nil, or_false] at hx
      rcases hx with rfl | rfl
      · exact Dline.valid_child hp.2.1 hl1 (by decide)
      · exact Dline.valid_child hp.2.1 hl1 (by decide))
    rw [h1, h2.2 ⟨p.2, hp.2.1, hl1, rfl⟩]
  have := isFamily_eq (f0 := child p 0) (f1 := child p 1) (f2 := child p 2) (f3 := child p 3) (f4 := child p 4)
    (f5 := child p 5) (f6 := child p 6) (f7 := child p 7) ht ht hd hd hd hd
  refine this.trans ?_
  have hpt : ∀ i, pairTest (child p i) (child p (i + 4)) true = true := by
    intro i
    have h1 : (child p (i + 4)).1 = (child p i).1 := by
      show Simplex.child .tri p.1 ((i + 4) % 4) = Simplex.child .tri p.1 (i % 4)
      rw [Nat.add_mod_right]
    rw [pairTest, h1]
    simp
  have hlv : ∀ i, ((child p i).2.level == (child p i).1.level) = true := by
    intro i
    show (p.2.level + 1 == p.1.level + 1) = true
    rw [htl]
    simp
  simp only [List.all_cons, List.all_nil, id_eq, hlv, Bool.and_true, Bool.true_and]
  rw [show pairTest (child p 0) (child p 4) true = true from hpt 0, show pairTest (child p 1) (child p 5) true = true from hpt 1,
    show pairTest (child p 2) (child p 6) true = true from hpt 2, show pairTest (child p 3) (child p 7) true = true from hpt 3]
  rfl

/-- A segment of the leaves of a complete refinement that passes the test is a family. -/
theorem family_of_segment {pre fam post : List Prism} (hlen : fam.length = 8)
    (ht : tree.Tiles root (pre ++ fam ++ post)) (h : isFamily fam = some true) : ∃ p, tree.IsFamilyOf fam p := by
  have hv : ∀ x ∈ fam, Valid x := fun x hx => (ht.ordered (T := tree) tree.valid_root).1 x (by simp [hx])
  obtain ⟨f0, f1, f2, f3, f4, f5, f6, f7, rfl⟩ := length_eight hlen
  obtain ⟨t0, ht0⟩ := Simplex.isFamily_some (c := .tri) (fam := [f0.1, f1.1, f2.1, f3.1]) rfl
  obtain ⟨t1, ht1⟩ := Simplex.isFamily_some (c := .tri) (fam := [f4.1, f5.1, f6.1, f7.1]) rfl
  have hline : ∀ a b : Prism, Valid a → Valid b → ∃ r, Dline.isFamily [a.2, b.2] = some r ∧
      (r = true → (Dline.childId a.2 = 0 ∧ Dline.childId b.2 = 1)) := by
    intro a b ha hb
    obtain ⟨r, h1, h2⟩ := Dline.C06_line [a.2, b.2] rfl (by
      intro x hx
      simp only [List.mem_cons, List.not_mem_nil, or_false] at hx
      rcases hx with rfl | rfl
      · exact ha.2.1
      · exact hb.2.1)
    refine ⟨r, h1, fun hr => ?_⟩
    obtain ⟨p, p1, p2, p3⟩ := h2.1 hr
    have p3' : [a.2, b.2] = [Dline.child p 0, Dline.child p 1] := p3
    simp only [List.cons.injEq, and_true] at p3'
    have h0 := ((Dline.C01_line p p1).1 p2 0 (by decide)).2.2.1
    have h1 := ((Dline.C01_line p p1).1 p2 1 (by decide)).2.2.1
    rw [p3'.1, p3'.2]
    exact ⟨h0, h1⟩
  obtain ⟨l0, a0, b0⟩ := hline f0 f4 (hv _ (by simp)) (hv _ (by simp))
  obtain ⟨l1, a1, b1⟩ := hline f1 f5 (hv _ (by simp)) (hv _ (by simp))
  obtain ⟨l2, a2, b2⟩ := hline f2 f6 (hv _ (by simp)) (hv _ (by simp))
  obtain ⟨l3, a3, b3⟩ := hline f3 f7 (hv _ (by simp)) (hv _ (by simp))
  rw [isFamily_eq ht0 ht1 a0 a1 a2 a3] at h
  have h' := Option.some.inj h
  simp only [Bool.and_eq_true, List.all_cons, List.all_nil, id_eq, pairTest, beq_iff_eq, and_true] at h'
  obtain ⟨⟨⟨rfl, rfl⟩, p0, p1, p2, p3⟩, _⟩ := h'
  have q0 := b0 p0.1.1.1.1
  have q1 := b1 p1.1.1.1.1
  have q2 := b2 p2.1.1.1.1
  have q3 := b3 p3.1.1.1.1
  obtain ⟨⟨g0, hg0, hgl⟩, k1, _⟩ := Simplex.isFamily_true (c := .tri) ht0
  obtain ⟨_, k2, _⟩ := Simplex.isFamily_true (c := .tri) ht1
  have e01 : f0.1.level = f1.1.level := k1 0 _ _ (by decide) rfl rfl
  have e12 : f1.1.level = f2.1.level := k1 1 _ _ (by decide) rfl rfl
  have e23 : f2.1.level = f3.1.level := k1 2 _ _ (by decide) rfl rfl
  have e45 : f4.1.level = f5.1.level := k2 0 _ _ (by decide) rfl rfl
  have e56 : f5.1.level = f6.1.level := k2 1 _ _ (by decide) rfl rfl
  have e67 : f6.1.level = f7.1.level := k2 2 _ _ (by decide) rfl rfl
  have e04 : f0.1.level = f4.1.level := p0.1.1.1.2
  have hg : 0 < f0.1.level := by
    have : f0.1 = g0 := Option.some.inj hg0
    rw [this]; exact hgl
  have hlev : ∀ x ∈ [f0, f1, f2, f3, f4, f5, f6, f7], x.2.level = f0.2.level := by
    intro x hx
    rw [← tri_level (hv x hx), ← tri_level (hv f0 (by simp))]
    simp only [List.mem_cons, List.not_mem_nil, or_false] at hx
    rcases hx with rfl | rfl | rfl | rfl | rfl | rfl | rfl | rfl <;> omega
  have hall := regular.segment_pos (T := tree) (N := 8) (pre := pre) (post := post) ht (by
    intro k f g hf hg
    show f.2.level = g.2.level
    rw [hlev f (List.mem_of_getElem? hf), hlev g (List.mem_of_getElem? hg)]) (f0 := f0) rfl
  have hids : ∀ k x, [f0, f1, f2, f3, f4, f5, f6, f7][k]? = some x → tree.childId x = (tree.childId f0 + k) % 8 ∧
      tree.childId x = Simplex.childId .tri x.1 + 4 * (Dline.childId x.2).toNat ∧ Simplex.childId .tri x.1 < 4 := by
    intro k x hk
    have vx := hv x (List.mem_of_getElem? hk)
    have v0 := hv f0 (by simp)
    have hx0 : 0 < tree.level x := by
      show 0 < x.2.level
      rw [hlev x (List.mem_of_getElem? hk), ← tri_level v0]
      exact hg
    have h00 : 0 < tree.level f0 := by
      show 0 < f0.2.level
      rw [← tri_level v0]
      exact hg
    have q1 := regular.pos_parent (e := x) vx hx0
    have q2 := regular.pos_parent (e := f0) v0 h00
    have q3 := (hall k x hk).2
    have q4 : tree.childId x < 8 := tree.childId_lt x vx hx0
    refine ⟨by omega, rfl, Simplex.childId_lt vx.1.aligned⟩
  obtain ⟨i0, j0, m0⟩ := hids 0 f0 rfl
  obtain ⟨i3, j3, m3⟩ := hids 3 f3 rfl
  obtain ⟨i4, j4, m4⟩ := hids 4 f4 rfl
  rw [q0.1] at j0
  rw [q0.2] at j4
  rw [q3.1] at j3
  have hid : tree.childId f0 = 0 := by
    have z : ((0 : Int)).toNat = 0 := rfl
    have o : ((1 : Int)).toNat = 1 := rfl
    rw [z] at j0 j3
    rw [o] at j4
    omega
  exact ⟨_, regular.family_of_pos hlen hv (f0 := f0) rfl (by
    show 0 < f0.2.level
    rw [← tri_level (hv f0 (by simp))]
    exact hg) hid hall⟩

end T8.Prism
