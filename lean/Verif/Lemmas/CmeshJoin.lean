/-
The face connections of a committed coarse mesh.
-/
import Verif.Spec.FaceNeighbor
import Mathlib.Tactic.IntervalCases

namespace T8.Neighbor

theorem numFaces_le_max (c : Eclass) : c.numFaces ≤ maxNumFaces c.dim := by cases c <;> decide

theorem faceType_vertices {c b : Eclass} {F : Nat} (h : faceType c F = some b) : b.numVertices ≤ 4 ∧ b.dim + 1 = c.dim := by
  have hF : F < 6 := by
    by_contra hc
    cases c <;> simp only [faceType] at h <;> (try split_ifs at h) <;> first | omega | cases h
  revert h
  interval_cases F <;> cases c <;> cases b <;> decide

theorem maxNumFaces_le (d : Nat) : maxNumFaces d ≤ 6 := by
  unfold maxNumFaces; split <;> omega

theorem toInt_ofInt8 {x : Int} (h0 : 0 ≤ x) (h1 : x < 128) : (BitVec.ofInt 8 x).toInt = x := by
  rw [BitVec.toInt_ofInt]
  rw [Int.bmod_eq_of_le] <;> omega

theorem encode_toInt {d : Nat} {f o : Int} (hf : 0 ≤ f) (hf' : f < maxNumFaces d) (ho : 0 ≤ o) (ho' : o < 4) :
    (encode d f o).toInt = o * maxNumFaces d + f := by
  have hm := maxNumFaces_le d
  have h1 : 0 ≤ o * (maxNumFaces d : Int) := by positivity
  have h2 : o * (maxNumFaces d : Int) ≤ 3 * 6 := by
    refine Int.mul_le_mul (by omega) (by omega) (by omega) (by omega)
  exact toInt_ofInt8 (by omega) (by omega)

theorem decode_encode {d : Nat} {f o : Int} (hf : 0 ≤ f) (hf' : f < maxNumFaces d) (ho : 0 ≤ o) (ho' : o < 4) :
    decode d (encode d f o) = (f, o) := by
  have hm : (0 : Int) < maxNumFaces d := by omega
  rw [decode, encode_toInt hf hf' ho ho']
  have h1 : 0 ≤ o * (maxNumFaces d : Int) := by positivity
  have hn : (0 : Int) ≤ o * (maxNumFaces d : Int) + f := by omega
  rw [Int.tmod_eq_emod_of_nonneg hn, Int.tdiv_eq_ediv_of_nonneg hn]
  refine Prod.ext ?_ ?_
  · show (o * (maxNumFaces d : Int) + f) % (maxNumFaces d : Int) = f
    rw [Int.add_comm, Int.add_mul_emod_self_right]
    exact Int.emod_eq_of_lt hf hf'
  · show (o * (maxNumFaces d : Int) + f) / (maxNumFaces d : Int) = o
    rw [Int.add_comm, Int.add_mul_ediv_right _ _ (by omega), Int.ediv_eq_zero_of_lt hf hf']
    omega

theorem join_dim (m : Cmesh) (j : Stash.JoinFace) : (m.join j).dim = m.dim ∧ (m.join j).classes = m.classes := ⟨rfl, rfl⟩

theorem foldl_dim (js : List Stash.JoinFace) (m : Cmesh) :
    (js.foldl Cmesh.join m).dim = m.dim ∧ (js.foldl Cmesh.join m).classes = m.classes := by
  induction js generalizing m with
  | nil => exact ⟨rfl, rfl⟩
  | cons j js ih => exact ih (m.join j)

theorem foldl_other (js : List Stash.JoinFace) (m : Cmesh) {t F : Int} (h : (t, F) ∉ js.flatMap sides) :
    (js.foldl Cmesh.join m).faceNeigh t F = m.faceNeigh t F ∧ (js.foldl Cmesh.join m).ttf t F = m.ttf t F := by
  induction js generalizing m with
  | nil => exact ⟨rfl, rfl⟩
  | cons j js ih =>
    simp only [List.flatMap_cons, List.mem_append, not_or, sides, List.mem_cons, Prod.mk.injEq, List.not_mem_nil, or_false] at h
    obtain ⟨⟨h1, h2⟩, h3⟩ := h
    obtain ⟨a, b⟩ := ih (m.join j) h3
    rw [List.foldl_cons, a, b]
    simp [Cmesh.join, setAt, h1, h2]

theorem foldl_joined (js : List Stash.JoinFace) (m : Cmesh) (hn : (js.flatMap sides).Nodup) {j : Stash.JoinFace} (hj : j ∈ js) :
    ((js.foldl Cmesh.join m).faceNeigh j.id1 j.face1 = j.id2 ∧
      (js.foldl Cmesh.join m).ttf j.id1 j.face1 = encode m.dim j.face2 j.orientation) ∧
    ((js.foldl Cmesh.join m).faceNeigh j.id2 j.face2 = j.id1 ∧
      (js.foldl Cmesh.join m).ttf j.id2 j.face2 = encode m.dim j.face1 j.orientation) := by
  induction js generalizing m with
  | nil => cases hj
  | cons k js ih =>
    rw [List.flatMap_cons, List.nodup_append] at hn
    obtain ⟨h1, h2, h3⟩ := hn
    rw [List.foldl_cons]
    rcases List.mem_cons.1 hj with rfl | hj
    · have e1 : (j.id1, j.face1) ∉ js.flatMap sides := fun h => h3 _ (by simp [sides]) _ h rfl
      have e2 : (j.id2, j.face2) ∉ js.flatMap sides := fun h => h3 _ (by simp [sides]) _ h rfl
      have ne : ¬ (j.id1 = j.id2 ∧ j.face1 = j.face2) := by
        intro h
        simp [sides, h.1, h.2] at h1
      obtain ⟨a, b⟩ := foldl_other js (m.join j) e1
      obtain ⟨c, d⟩ := foldl_other js (m.join j) e2
      rw [a, b, c, d]
      simp [Cmesh.join, setAt, ne]
    · exact ih (m.join k) h2 hj

theorem Joined.symm {joins : List Stash.JoinFace} {t F t' F' o : Int} (h : Joined joins t F t' F' o) :
    Joined joins t' F' t F o := by
  obtain ⟨j, hj, ho, h⟩ := h
  refine ⟨j, hj, ho, ?_⟩
  rcases h with ⟨a, b, c, d⟩ | ⟨a, b, c, d⟩
  · exact Or.inr ⟨c, d, a, b⟩
  · exact Or.inl ⟨c, d, a, b⟩

theorem mem_sides {joins : List Stash.JoinFace} {t F : Int} :
    (t, F) ∈ joins.flatMap sides ↔ ∃ t' F' o, Joined joins t F t' F' o := by
  simp only [List.mem_flatMap, sides, List.mem_cons, Prod.mk.injEq, List.not_mem_nil, or_false]
  constructor
  · rintro ⟨j, hj, ⟨a, b⟩ | ⟨a, b⟩⟩
    · exact ⟨_, _, _, j, hj, rfl, Or.inl ⟨a.symm, b.symm, rfl, rfl⟩⟩
    · exact ⟨_, _, _, j, hj, rfl, Or.inr ⟨a.symm, b.symm, rfl, rfl⟩⟩
  · rintro ⟨_, _, _, j, hj, _, ⟨a, b, _, _⟩ | ⟨a, b, _, _⟩⟩
    · exact ⟨j, hj, Or.inl ⟨a.symm, b.symm⟩⟩
    · exact ⟨j, hj, Or.inr ⟨a.symm, b.symm⟩⟩

variable {dim : Nat} {classes : List Eclass} {joins : List Stash.JoinFace}

/-- What is known about the two sides of a connection. -/
theorem Conforming.joined (hC : Conforming dim classes joins) {t F t' F' o : Int} (h : Joined joins t F t' F' o) :
    ∃ c c' b, 0 ≤ t ∧ classes[t.toNat]? = some c ∧ 0 ≤ t' ∧ classes[t'.toNat]? = some c' ∧ 0 ≤ F ∧ F < c.numFaces ∧ 0 ≤ F' ∧
      F' < c'.numFaces ∧ faceType c F.toNat = some b ∧ faceType c' F'.toNat = some b ∧ 0 ≤ o ∧ o < b.numVertices := by
  obtain ⟨j, hj, rfl, h⟩ := h
  obtain ⟨c1, c2, b, h1, h2, h3, h4, h5, h6, h7, h8, h9, h10, h11, h12⟩ := hC.faces j hj
  rcases h with ⟨rfl, rfl, rfl, rfl⟩ | ⟨rfl, rfl, rfl, rfl⟩
  · exact ⟨c1, c2, b, h1, h2, h3, h4, h5, h6, h7, h8, h9, h10, h11, h12⟩
  · exact ⟨c2, c1, b, h3, h4, h1, h2, h7, h8, h5, h6, h10, h9, h11, h12⟩

theorem Conforming.ne (hC : Conforming dim classes joins) {t F t' F' o : Int} (h : Joined joins t F t' F' o) :
    ¬ (t = t' ∧ F = F') := by
  obtain ⟨j, hj, _, h⟩ := h
  have : (sides j).Nodup := (List.sublist_flatten_of_mem (List.mem_map_of_mem hj)).nodup
    (by rw [← List.flatMap_def]; exact hC.once)
  rintro ⟨rfl, rfl⟩
  rcases h with ⟨a, b, c, d⟩ | ⟨a, b, c, d⟩ <;> simp [sides, a, b, c, d] at this

/-- A joined face has the neighbor that it was joined to. -/
theorem faceNeighbor_joined (hC : Conforming dim classes joins) {t F t' F' o : Int} (h : Joined joins t F t' F' o) :
    (Cmesh.commit dim classes joins).faceNeighbor t F = some (t', F', o) := by
  obtain ⟨c, c', b, h1, h2, h3, h4, h5, h6, h7, h8, h9, h10, h11, h12⟩ := hC.joined h
  have hne := hC.ne h
  have hd : c.dim = dim := hC.dim_eq c (List.mem_of_getElem? h2)
  have hd' : c'.dim = dim := hC.dim_eq c' (List.mem_of_getElem? h4)
  have hm := numFaces_le_max c
  have hm' := numFaces_le_max c'
  rw [hd] at hm
  rw [hd'] at hm'
  have hv := (faceType_vertices h9).1
  have key : (Cmesh.commit dim classes joins).faceNeigh t F = t' ∧
      (Cmesh.commit dim classes joins).ttf t F = encode dim F' o := by
    obtain ⟨j, hj, rfl, h⟩ := h
    obtain ⟨a, b⟩ := foldl_joined joins (Cmesh.allBoundary dim classes) hC.once hj
    rcases h with ⟨rfl, rfl, rfl, rfl⟩ | ⟨rfl, rfl, rfl, rfl⟩
    · exact a
    · exact b
  have hdim : (Cmesh.commit dim classes joins).dim = dim := (foldl_dim joins _).1
  have hnb : (Cmesh.commit dim classes joins).faceIsBoundary t F = false := by
    rw [Cmesh.faceIsBoundary, key.1, key.2, encode_toInt h7 (by omega) h11 (by omega), Bool.and_eq_false_iff]
    by_cases ht : t' = t
    · right
      rw [beq_eq_false_iff_ne]
      intro he
      have ho : o = 0 := by
        by_contra hc
        have : 1 * (maxNumFaces dim : Int) ≤ o * (maxNumFaces dim : Int) :=
          Int.mul_le_mul_of_nonneg_right (by omega) (by omega)
        omega
      rw [ho] at he
      exact hne ⟨ht.symm, by omega⟩
    · left
      rw [beq_eq_false_iff_ne]; exact ht
  rw [Cmesh.faceNeighbor, hnb, key.1, key.2, hdim, decode_encode h7 (by omega) h11 (by omega)]
  rfl

/-- A face that is not joined has no neighbor. -/
theorem faceNeighbor_boundary {t F : Int} (h0 : 0 ≤ F) (h1 : F < 128)
    (h : (t, F) ∉ joins.flatMap sides) : (Cmesh.commit dim classes joins).faceNeighbor t F = none := by
  obtain ⟨a, b⟩ := foldl_other joins (Cmesh.allBoundary dim classes) h
  have : (Cmesh.commit dim classes joins).faceIsBoundary t F = true := by
    rw [Cmesh.faceIsBoundary, Cmesh.commit, a, b]
    show (t == t && (BitVec.ofInt 8 F).toInt == F) = true
    rw [toInt_ofInt8 h0 h1]
    simp
  rw [Cmesh.faceNeighbor, this]
  rfl

theorem treeClass_commit (t : Int) : (Cmesh.commit dim classes joins).treeClass t = if 0 ≤ t then classes[t.toNat]? else none := by
  rw [Cmesh.treeClass, Cmesh.commit, (foldl_dim joins _).2]
  rfl

theorem isSmaller_symm {c nc : Eclass} (hd : c.dim = nc.dim) {F F' : Int} :
    ∃ s, isSmaller c nc F F' = some s ∧ (isSmaller nc c F' F = some (!s) ∨ (c = nc ∧ F = F' ∧ isSmaller nc c F' F = some s)) := by
  by_cases hcc : c = nc
  · subst hcc
    have h : eclassCompare c c = some 0 := by cases c <;> rfl
    refine ⟨decide (F ≤ F'), ?_, ?_⟩
    · rw [isSmaller, h]; rfl
    · by_cases hF : F = F'
      · right; subst hF; refine ⟨rfl, rfl, ?_⟩; rw [isSmaller, h]; rfl
      · left
        rw [isSmaller, h]
        show some (decide (F' ≤ F)) = _
        congr 1
        by_cases h' : F ≤ F'
        · simp [h']; omega
        · simp [h']; omega
  · have : ∃ s, isSmaller c nc F F' = some s ∧ isSmaller nc c F' F = some (!s) := by
      revert hcc hd
      cases c <;> cases nc <;> intro hd hcc <;>
        first
        | exact absurd hd (by decide)
        | exact absurd rfl hcc
        | exact ⟨true, rfl, rfl⟩
        | exact ⟨false, rfl, rfl⟩
    obtain ⟨s, h1, h2⟩ := this
    exact ⟨s, h1, Or.inl h2⟩

end T8.Neighbor
