/-
The loop of `t8_forest_adapt` over the elements of a tree.
-/
import Verif.Lemmas.AdaptFamily

namespace T8
namespace Adapt
open RTree
variable {T : RTree} {S : Scheme T} {σ : Type}

/-- `x` overlaps one of the first `c` leaves. -/
def Meets (leaves : List T.E) (c : Nat) (x : T.E) : Prop := ∃ y ∈ leaves.take c, T.Desc x y ∨ T.Desc y x

theorem Meets.mono {leaves : List T.E} {c d : Nat} {x : T.E} (h : Meets leaves c x) (hcd : c ≤ d) : Meets leaves d x := by
  obtain ⟨y, hy, h⟩ := h
  exact ⟨y, (List.take_sublist_take_left hcd).subset hy, h⟩

theorem Meets.parent {leaves : List T.E} {c : Nat} {x : T.E} (hv : ∀ x ∈ leaves, T.Valid x) (hx : T.Valid x)
    (h0 : 0 < T.level x) (h : Meets leaves c x) : Meets leaves c (T.parent x) := by
  obtain ⟨y, hy, h⟩ := h
  refine ⟨y, hy, ?_⟩
  have hd := desc_parent hx h0
  rcases h with h | h
  · exact Or.inl (hd.trans h)
  · have vp := T.valid_parent x hx h0
    have vy := hv y (List.mem_of_mem_take hy)
    rcases Nat.le_total (T.level (T.parent x)) (T.level y) with hle | hle
    · exact Or.inl (desc_comparable vp vy hd h hle)
    · exact Or.inr (desc_comparable vy vp h hd hle)

/-- Which families the callback is asked about. -/
def Offered (cfg : Cfg) (lt : Nat) (leaves : List T.E) (i n : Nat) : Prop :=
  if cfg.incomplete then
    ∃ p, T.GroupAt [] leaves [] i n p ∧
      ¬ (i = 0 ∧ (∃ e, leaves[i]? = some e ∧ 0 < T.childId e) ∧ lt = 0 ∧ 0 < cfg.mpirank) ∧
      ¬ (leaves.length < i + T.nc p ∧ lt + 1 = cfg.numTrees ∧ cfg.mpirank + 1 < cfg.mpisize)
  else T.FamilyAt leaves i n

/-- Adapt can refine the element. -/
def CanRefine (cfg : Cfg) (e : T.E) : Prop := T.level e < cfg.maxlevel ∧ T.level e < T.maxLevel

/-- The question asked by the code is the specified one. -/
theorem question_spec (hS : S.Lawful) {cfg : Cfg} {lt : Nat} {pre leaves post : List T.E}
    (ho : T.Ordered (pre ++ leaves ++ post)) (env : Env cfg lt pre post) (hc : Covered S cfg leaves) {i : Nat} {e : T.E}
    (he : leaves[i]? = some e) :
    ∃ n, familySize S cfg lt leaves i (S.numSiblings e) = some n ∧ n ≤ S.numSiblings e ∧
      (n ≠ 0 → 0 < T.level e ∧ T.GroupAt pre leaves post i n (T.parent e) ∧
        (cfg.incomplete = false → T.IsFamilyOf ((leaves.drop i).take n) (T.parent e))) ∧
      T.Question leaves (Offered cfg lt leaves) i e (decide (n ≠ 0)) ((leaves.drop i).take (if n = 0 then 1 else n)) := by
  have hi : i < leaves.length := (List.getElem?_eq_some_iff.1 he).1
  have hdrop : leaves.drop i = e :: leaves.drop (i + 1) := by
    rw [List.drop_eq_getElem_cons hi]
    congr 1
    rw [List.getElem?_eq_getElem hi] at he
    exact Option.some.inj he
  have vem : T.Valid e := ho.1 e (by simp [List.mem_of_getElem? he])
  obtain ⟨n, h1, h2, h3, h4, h5⟩ := familySize_spec hS ho env hc he
  refine ⟨n, h1, h2, fun h => h3 (by omega), ?_⟩
  by_cases hn : n = 0
  · subst hn
    right
    refine ⟨by simp, ?_, by rw [if_pos rfl, hdrop, List.take_succ_cons]; rfl⟩
    intro m hm
    unfold Offered at hm
    cases hinc : cfg.incomplete with
    | true =>
      rw [hinc, if_pos rfl] at hm
      obtain ⟨p, hg, b1, b2⟩ := hm
      have := h5 hinc m p hg (fun hc => b1 ⟨hc.1, ⟨e, he, hc.2.1⟩, hc.2.2⟩) b2
      have := hg.pos
      omega
    | false =>
      rw [hinc, if_neg (by decide)] at hm
      obtain ⟨p, rfl, hp⟩ := hm
      have := h4 hinc p hp
      have := T.nc_pos p hp.1
      omega
  · left
    refine ⟨by simp [hn], n, ?_, by rw [if_neg hn]⟩
    obtain ⟨g1, g2, g3⟩ := h3 (by omega)
    unfold Offered
    cases hinc : cfg.incomplete with
    | true =>
      rw [if_pos rfl]
      refine ⟨T.parent e, g2.weaken, ?_, ?_⟩
      · rintro ⟨c1, ⟨e', he', c2⟩, c3⟩
        rw [he] at he'
        obtain rfl := Option.some.inj he'
        have hcid := hS.childId e vem g1
        -- the code rejects this case
        have : familySize S cfg lt leaves i (S.numSiblings e) = some 0 ∨
            familySize S cfg lt leaves i (S.numSiblings e) = none := by
          clear h1 h3 h4 h5
          rw [familySize, hinc, if_pos rfl]
          simp only [isIncompleteFamily]
          generalize loadFamily S (!true) (S.numSiblings e) (leaves.drop i) 0 = m
          simp only [he, Option.bind_eq_bind, Option.bind_some]
          by_cases a1 : 0 < m ∧ i + m ≤ leaves.length
          · rw [show assertO (0 < m ∧ i + m ≤ leaves.length) = some () from assertO_true a1, Option.bind_some,
              if_neg (by omega), if_neg (by omega), Option.bind_some, if_neg (by decide)]
            generalize reduceFamily S (T.level e) (T.parent e) _ 1 = f
            by_cases a2 : 0 < f ∧ f ≤ m
            · rw [show assertO (0 < f ∧ f ≤ m) = some () from assertO_true a2, Option.bind_some]
              generalize (if f < m then _ else _ : Option Bool) = o
              cases o with
              | none => right; rfl
              | some b =>
                rw [Option.bind_some]
                cases b with
                | true => left; rfl
                | false =>
                  rw [if_neg (by decide)]
                  by_cases a3 : f ≤ S.numSiblings e
                  · rw [show assertO (f ≤ S.numSiblings e) = some () from assertO_true a3, Option.bind_some,
                      if_pos ⟨c1, by omega, c3⟩]
                    left; rfl
                  · rw [show assertO (f ≤ S.numSiblings e) = none from assertO_false a3]
                    right; rfl
            · rw [show assertO (0 < f ∧ f ≤ m) = none from assertO_false a2]
              right; rfl
          · rw [show assertO (0 < m ∧ i + m ≤ leaves.length) = none from assertO_false a1]
            right; rfl
        rw [h1] at this
        rcases this with h' | h'
        · exact hn (Option.some.inj h')
        · simp at h'
      · rintro ⟨c1, c2⟩
        have hnsp := hS.numSiblings e vem g1
        have : familySize S cfg lt leaves i (S.numSiblings e) = some 0 ∨
            familySize S cfg lt leaves i (S.numSiblings e) = none := by
          clear h1 h3 h4 h5
          rw [familySize, hinc, if_pos rfl]
          simp only [isIncompleteFamily]
          generalize loadFamily S (!true) (S.numSiblings e) (leaves.drop i) 0 = m
          simp only [he, Option.bind_eq_bind, Option.bind_some]
          by_cases a1 : 0 < m ∧ i + m ≤ leaves.length
          · rw [show assertO (0 < m ∧ i + m ≤ leaves.length) = some () from assertO_true a1, Option.bind_some,
              if_neg (by omega)]
            generalize (if 0 < S.childId e ∧ 0 < i then _ else _ : Option Bool) = o1
            cases o1 with
            | none => right; rfl
            | some b1 =>
              rw [Option.bind_some]
              cases b1 with
              | true => left; rfl
              | false =>
                rw [if_neg (by decide)]
                generalize reduceFamily S (T.level e) (T.parent e) _ 1 = f
                by_cases a2 : 0 < f ∧ f ≤ m
                · rw [show assertO (0 < f ∧ f ≤ m) = some () from assertO_true a2, Option.bind_some]
                  generalize (if f < m then _ else _ : Option Bool) = o
                  cases o with
                  | none => right; rfl
                  | some b =>
                    rw [Option.bind_some]
                    cases b with
                    | true => left; rfl
                    | false =>
                      rw [if_neg (by decide)]
                      by_cases a3 : f ≤ S.numSiblings e
                      · rw [show assertO (f ≤ S.numSiblings e) = some () from assertO_true a3, Option.bind_some]
                        by_cases a4 : i = 0 ∧ 0 < S.childId e ∧ lt = 0 ∧ 0 < cfg.mpirank
                        · rw [if_pos a4]; left; rfl
                        · rw [if_neg a4, if_pos ⟨by omega, c2⟩]; left; rfl
                      · rw [show assertO (f ≤ S.numSiblings e) = none from assertO_false a3]
                        right; rfl
                · rw [show assertO (0 < f ∧ f ≤ m) = none from assertO_false a2]
                  right; rfl
          · rw [show assertO (0 < m ∧ i + m ≤ leaves.length) = none from assertO_false a1]
            right; rfl
        rw [h1] at this
        rcases this with h' | h'
        · exact hn (Option.some.inj h')
        · simp at h'
    | false =>
      rw [if_neg (by decide)]
      have hfam := g3 hinc
      refine ⟨T.parent e, ?_, hfam⟩
      have := congrArg List.length hfam.2.2
      rw [List.length_take, List.length_drop, List.length_map, List.length_range] at this
      have := g2.le
      omega

end Adapt
end T8
