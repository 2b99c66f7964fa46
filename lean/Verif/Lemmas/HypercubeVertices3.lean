/-
The vertices of the trees of `t8_cmesh_new_hypercube_pad_ext` in three dimensions.
-/
import Verif.Lemmas.HypercubeVertices

namespace T8.HypercubePad
open Neighbor

variable {K : Type} [Field K] [LinearOrder K] [IsStrictOrderedRing K] {norm : (Fin 3 → K) → K} {T : GridPoint → Fin 3 → K} {nx ny nz : Nat}

/-- The edges of the grid with one more cube in each direction are not degenerate. -/
def Regular3 (T : GridPoint → Fin 3 → K) (n : Fin 3 → Nat) : Prop :=
  ∀ p : GridPoint, (∀ k, 0 ≤ p k ∧ p k ≤ n k + 1) → ∀ a, slope T a p ≠ 0

theorem shrink3 (hn : NormLike norm) (hT : MultiAffine T) {n : Fin 3 → Nat} (hR : Regular3 T n) {lo hi : GridPoint}
    (hlo : ∀ k, 0 ≤ lo k ∧ lo k ≤ n k) (hhi : ∀ k, hi k = n k + 1) {f : Nat} (hf : f < 6) (hf2 : f % 2 = 0) {a : Fin 3} (ha : a.val = f / 2)
    {k : Int} (h0 : 0 ≤ lo a + k) (h1 : lo a + k ≤ n a) {B : Box K} (hI : Inv 3 T lo hi (fun _ => True) B) :
    ∃ B', move norm 3 f k B = some B' ∧ Inv 3 T (Function.update lo a (lo a + k)) hi (fun _ => True) B' := by
  obtain ⟨B', hB, hI'⟩ := move_ok hn hT (dim := 3) (f := f) (Or.inr rfl) (by omega) ha (k := k) hI (fun _ _ _ => trivial)
    (fun b _ _ => by have := hlo b; have := hhi b; omega)
    (fun b w hb hba hw hwf => by
      refine hR _ (fun j => ?_) b
      by_cases hj : j = a
      · subst hj
        have : pos lo hi w j = lo j := by simp only [pos]; rw [if_pos (by omega)]
        simp only [Function.update_self, this]
        omega
      · rw [Function.update_of_ne hj]
        have h2 := hlo j
        have h3 := hhi j
        simp only [pos]
        split <;> omega)
  refine ⟨B', hB, ?_⟩
  have e1 : newLo f a k lo = Function.update lo a (lo a + k) := by simp [newLo, hf2]
  have e2 : newHi f a k hi = hi := by simp [newHi, hf2]
  rw [e1, e2] at hI'
  exact hI'.mono fun _ _ _ => Or.inl trivial

theorem grow3 (hn : NormLike norm) (hT : MultiAffine T) {n : Fin 3 → Nat} (hR : Regular3 T n) (hpos : ∀ k, 0 < n k) {hi : GridPoint}
    (hhi : ∀ k, n k ≤ hi k ∧ hi k ≤ n k + 1) {f : Nat} (hf : f < 6) (hf2 : f % 2 = 1) {a : Fin 3} (ha : a.val = f / 2)
    (h0 : hi a = n a) {B : Box K} (hI : Inv 3 T 0 hi (fun _ => True) B) :
    ∃ B', move norm 3 f 1 B = some B' ∧ Inv 3 T 0 (Function.update hi a (n a + 1)) (fun _ => True) B' := by
  obtain ⟨B', hB, hI'⟩ := move_ok hn hT (dim := 3) (f := f) (Or.inr rfl) (by omega) ha (k := 1) hI (fun _ _ _ => trivial)
    (fun b _ _ => by have := hhi b; have := hpos b; simp only [Pi.zero_apply]; omega)
    (fun b w hb hba hw hwf => by
      refine hR _ (fun j => ?_) b
      have h2 := hhi j
      by_cases hj : j = a
      · subst hj
        have : pos 0 hi w j = hi j := by simp only [pos]; rw [if_neg (by omega)]
        simp only [Function.update_self, this]
        omega
      · rw [Function.update_of_ne hj]
        simp only [pos, Pi.zero_apply]
        split <;> omega)
  refine ⟨B', hB, ?_⟩
  have e1 : newLo f a 1 0 = 0 := by simp [newLo, hf2]
  have e2 : newHi f a 1 hi = Function.update hi a (n a + 1) := by simp [newHi, hf2, h0]
  rw [e1, e2] at hI'
  exact hI'.mono fun _ _ _ => Or.inl trivial

theorem bounds3 {x y z : Nat} (hx : x ≤ nx) (hy : y ≤ ny) (hz : z ≤ nz) :
    ∀ k : Fin 3, 0 ≤ (![(x : Int), y, z] : GridPoint) k ∧ (![(x : Int), y, z] : GridPoint) k ≤ ((![nx, ny, nz] : Fin 3 → Nat) k : Int) := by
  intro k
  fin_cases k <;> simp <;> omega

theorem hi3 : ∀ k : Fin 3, (![(nx : Int) + 1, ny + 1, nz + 1] : GridPoint) k = ((![nx, ny, nz] : Fin 3 → Nat) k : Int) + 1 := by
  intro k
  fin_cases k <;> simp

omit [IsStrictOrderedRing K] in
theorem first_corner {x y z : Int} {hi : GridPoint} {B : Box K} (hI : Inv 3 T ![x, y, z] hi (fun _ => True) B) :
    B.box 0 = T ![x, y, z] ∧ B.dir 4 + (1 : K) • B.box 0 = T ![x, y + 1, z] := by
  have p0 : ∀ lo hi : GridPoint, pos lo hi 0 = lo := fun lo hi => by funext k; simp [pos]
  have a1 : B.box 0 = T ![x, y, z] := by rw [hI.box 0 (by decide), p0]
  refine ⟨a1, ?_⟩
  rw [hI.dir 4 (by decide) trivial, one_smul, a1]
  show slope T 1 (pos _ _ 0) + _ = _
  rw [p0, slope_add]
  congr 1; funext k; fin_cases k <;> simp

theorem cell3D_ok (hn : NormLike norm) (hT : MultiAffine T) (hR : Regular3 T ![nx, ny, nz]) {c : Eclass} (hc : c = .hex ∨ c = .tet ∨ c = .prism)
    {aligned : Bool} (ha : aligned = true → c = .hex) {offset x y z : Nat} (ho : c = .hex ∨ offset = 0) (hx : x < nx) (hy : y < ny)
    (hz : z < nz) {B : Box K} (hI : Inv 3 T ![(x : Int), y, z] ![(nx : Int) + 1, ny + 1, nz + 1] (fun _ => True) B) (out : List (Call K)) :
    ∃ B', cell3D norm c aligned nx ny offset z y (B, out) x = some (B', out ++ (List.range (treesPerCube c)).map fun s =>
        treeCall c aligned nx ny offset T ((z * ny * nx + y * nx + x) * treesPerCube c + s)) ∧
      Inv 3 T ![((x + 1 : Nat) : Int), y, z] ![(nx : Int) + 1, ny + 1, nz + 1] (fun _ => True) B' := by
  obtain ⟨B1, h1, hI1⟩ := shrink3 hn hT hR (bounds3 hx.le hy.le hz.le) hi3 (f := 4) (by decide) rfl (a := 2) rfl (k := 1)
    (by simp; omega) (by simp; omega) hI
  have e1 : Function.update ![(x : Int), y, z] 2 ((![(x : Int), y, z] : GridPoint) 2 + 1) = ![(x : Int), y, ((z + 1 : Nat) : Int)] := by
    funext k; fin_cases k <;> simp
  rw [e1] at hI1
  obtain ⟨B2, h2, hI2⟩ := shrink3 hn hT hR (bounds3 hx.le hy.le hz) hi3 (f := 0) (by decide) rfl (a := 0) rfl (k := 1)
    (by simp; omega) (by simp; omega) hI1
  have e2 : Function.update ![(x : Int), y, ((z + 1 : Nat) : Int)] 0 ((![(x : Int), y, ((z + 1 : Nat) : Int)] : GridPoint) 0 + 1) =
      ![((x + 1 : Nat) : Int), y, ((z + 1 : Nat) : Int)] := by
    funext k; fin_cases k <;> simp
  rw [e2] at hI2
  obtain ⟨B3, h3, hI3⟩ := shrink3 hn hT hR (bounds3 hx hy.le hz) hi3 (f := 4) (by decide) rfl (a := 2) rfl (k := -1)
    (by simp) (by simp; omega) hI2
  have e3 : Function.update ![((x + 1 : Nat) : Int), y, ((z + 1 : Nat) : Int)] 2
      ((![((x + 1 : Nat) : Int), y, ((z + 1 : Nat) : Int)] : GridPoint) 2 + -1) = ![((x + 1 : Nat) : Int), y, (z : Int)] := by
    funext k; fin_cases k <;> simp
  rw [e3] at hI3
  refine ⟨B3, ?_, hI3⟩
  obtain ⟨v0, v2⟩ := first_corner hI
  obtain ⟨v4, v6⟩ := first_corner hI1
  obtain ⟨v5, v7⟩ := first_corner hI2
  obtain ⟨v1, v3⟩ := first_corner hI3
  rw [cell3D]
  simp only [h1, h2, h3, Option.bind_eq_bind, Option.bind_some]
  rw [trees3D_ok hc ha ho hx hy T _ (fun i hi => ?_)]
  · rfl
  · interval_cases i
    · refine v0.trans (congrArg T ?_); funext k; fin_cases k <;> simp [cubeCorner]
    · refine (one_smul K (B3.box 0)).trans (v1.trans (congrArg T ?_)); funext k; fin_cases k <;> simp [cubeCorner]
    · refine v2.trans (congrArg T ?_); funext k; fin_cases k <;> simp [cubeCorner]
    · refine v3.trans (congrArg T ?_); funext k; fin_cases k <;> simp [cubeCorner]
    · refine (one_smul K (B1.box 0)).trans (v4.trans (congrArg T ?_)); funext k; fin_cases k <;> simp [cubeCorner]
    · refine (one_smul K (B2.box 0)).trans (v5.trans (congrArg T ?_)); funext k; fin_cases k <;> simp [cubeCorner]
    · refine v6.trans (congrArg T ?_); funext k; fin_cases k <;> simp [cubeCorner]
    · refine v7.trans (congrArg T ?_); funext k; fin_cases k <;> simp [cubeCorner]

theorem row3D_ok (hn : NormLike norm) (hT : MultiAffine T) (hR : Regular3 T ![nx, ny, nz]) {c : Eclass} (hc : c = .hex ∨ c = .tet ∨ c = .prism)
    {aligned : Bool} (ha : aligned = true → c = .hex) {offset y z : Nat} (ho : c = .hex ∨ offset = 0) (hy : y < ny)
    (hz : z < nz) {B : Box K} (hI : Inv 3 T ![0, (y : Int), z] ![(nx : Int) + 1, ny + 1, nz + 1] (fun _ => True) B) {out : List (Call K)}
    (hout : out = (List.range ((z * ny * nx + y * nx) * treesPerCube c)).map (treeCall c aligned nx ny offset T)) :
    ∃ B' out', row3D norm c aligned nx ny offset z (B, out) y = some (B', out') ∧
      Inv 3 T ![0, ((y + 1 : Nat) : Int), z] ![(nx : Int) + 1, ny + 1, nz + 1] (fun _ => True) B' ∧
      out' = (List.range ((z * ny * nx + (y + 1) * nx) * treesPerCube c)).map (treeCall c aligned nx ny offset T) := by
  obtain ⟨⟨B1, out1⟩, h1, hI1, ho1⟩ := foldlM_range (cell3D norm c aligned nx ny offset z y)
    (fun x s => Inv 3 T ![(x : Int), y, z] ![(nx : Int) + 1, ny + 1, nz + 1] (fun _ => True) s.1 ∧
      s.2 = (List.range ((z * ny * nx + y * nx + x) * treesPerCube c)).map (treeCall c aligned nx ny offset T)) nx
    (fun x hx s hs => by
      obtain ⟨B', h, hI'⟩ := cell3D_ok hn hT hR hc ha ho hx hy hz hs.1 s.2
      refine ⟨_, h, hI', ?_⟩
      simp only [hs.2]
      exact calls_succ c aligned nx ny offset T (z * ny * nx + y * nx + x))
    (B, out) ⟨by simpa using hI, by simpa using hout⟩
  have x0 : B1.axes 0 = 1 := by simpa using hI1.axes 0 (by decide)
  obtain ⟨B2, h2, hI2⟩ := shrink3 hn hT hR (bounds3 le_rfl hy.le hz.le) hi3 (f := 0) (by decide) rfl (a := 0) rfl (k := -(nx : Int))
    (by simp) (by simp) hI1
  have e2 : Function.update ![(nx : Int), y, z] 0 ((![(nx : Int), y, z] : GridPoint) 0 + -(nx : Int)) = ![((0 : Nat) : Int), (y : Int), z] := by
    funext k; fin_cases k <;> simp
  rw [e2] at hI2
  obtain ⟨B3, h3, hI3⟩ := shrink3 hn hT hR (bounds3 (Nat.zero_le nx) hy.le hz.le) hi3 (f := 2) (by decide) rfl (a := 1) rfl (k := 1)
    (by simp; omega) (by simp; omega) hI2
  have e3 : Function.update ![((0 : Nat) : Int), (y : Int), z] 1 ((![((0 : Nat) : Int), (y : Int), z] : GridPoint) 1 + 1) =
      ![0, ((y + 1 : Nat) : Int), (z : Int)] := by
    funext k; fin_cases k <;> simp
  rw [e3] at hI3
  refine ⟨B3, out1, ?_, hI3, ?_⟩
  · rw [row3D, h1]
    simp only [Option.bind_eq_bind, Option.bind_some, x0, assertO_true, h2, h3]
    rfl
  · rw [Nat.add_mul y, Nat.one_mul, ← Nat.add_assoc]
    exact ho1

theorem layer3D_ok (hn : NormLike norm) (hT : MultiAffine T) (hR : Regular3 T ![nx, ny, nz]) {c : Eclass} (hc : c = .hex ∨ c = .tet ∨ c = .prism)
    {aligned : Bool} (ha : aligned = true → c = .hex) {offset z : Nat} (ho : c = .hex ∨ offset = 0)
    (hz : z < nz) {B : Box K} (hI : Inv 3 T ![0, 0, (z : Int)] ![(nx : Int) + 1, ny + 1, nz + 1] (fun _ => True) B) {out : List (Call K)}
    (hout : out = (List.range (z * ny * nx * treesPerCube c)).map (treeCall c aligned nx ny offset T)) :
    ∃ B' out', layer3D norm c aligned nx ny offset (B, out) z = some (B', out') ∧
      Inv 3 T ![0, 0, ((z + 1 : Nat) : Int)] ![(nx : Int) + 1, ny + 1, nz + 1] (fun _ => True) B' ∧
      out' = (List.range ((z + 1) * ny * nx * treesPerCube c)).map (treeCall c aligned nx ny offset T) := by
  obtain ⟨⟨B1, out1⟩, h1, hI1, ho1⟩ := foldlM_range (row3D norm c aligned nx ny offset z)
    (fun y s => Inv 3 T ![0, (y : Int), z] ![(nx : Int) + 1, ny + 1, nz + 1] (fun _ => True) s.1 ∧
      s.2 = (List.range ((z * ny * nx + y * nx) * treesPerCube c)).map (treeCall c aligned nx ny offset T)) ny
    (fun y hy s hs => by
      obtain ⟨B', out', h, hI', ho'⟩ := row3D_ok hn hT hR hc ha ho hy hz hs.1 hs.2
      exact ⟨_, h, hI', ho'⟩)
    (B, out) ⟨by simpa using hI, by simpa using hout⟩
  have x0 : B1.axes 0 = (nx : Int) + 1 := by simpa using hI1.axes 0 (by decide)
  have x1 : B1.axes 1 = 1 := by simpa using hI1.axes 1 (by decide)
  have hI1 : Inv 3 T ![((0 : Nat) : Int), (ny : Int), z] ![(nx : Int) + 1, ny + 1, nz + 1] (fun _ => True) B1 := by simpa using hI1
  obtain ⟨B2, h2, hI2⟩ := shrink3 hn hT hR (bounds3 (Nat.zero_le nx) le_rfl hz.le) hi3 (f := 2) (by decide) rfl (a := 1) rfl
    (k := -(ny : Int)) (by simp) (by simp) hI1
  have e2 : Function.update ![((0 : Nat) : Int), (ny : Int), z] 1 ((![((0 : Nat) : Int), (ny : Int), z] : GridPoint) 1 + -(ny : Int)) =
      ![((0 : Nat) : Int), ((0 : Nat) : Int), (z : Int)] := by
    funext k; fin_cases k <;> simp
  rw [e2] at hI2
  obtain ⟨B3, h3, hI3⟩ := shrink3 hn hT hR (bounds3 (Nat.zero_le nx) (Nat.zero_le ny) hz.le) hi3 (f := 4) (by decide) rfl (a := 2) rfl (k := 1)
    (by simp; omega) (by simp; omega) hI2
  have e3 : Function.update ![((0 : Nat) : Int), ((0 : Nat) : Int), (z : Int)] 2
      ((![((0 : Nat) : Int), ((0 : Nat) : Int), (z : Int)] : GridPoint) 2 + 1) = ![0, 0, ((z + 1 : Nat) : Int)] := by
    funext k; fin_cases k <;> simp
  rw [e3] at hI3
  refine ⟨B3, out1, ?_, hI3, ?_⟩
  · rw [layer3D, h1]
    simp only [Option.bind_eq_bind, Option.bind_some, x0, x1, assertO_true, h2, h3]
    rfl
  · rw [Nat.add_mul z, Nat.one_mul, Nat.add_mul]
    exact ho1

theorem setVertices3D_ok (hn : NormLike norm) (hT : MultiAffine T) (hR : Regular3 T ![nx, ny, nz]) {c : Eclass}
    (hc : c = .hex ∨ c = .tet ∨ c = .prism) {aligned : Bool} (ha : aligned = true → c = .hex) {offset : Nat}
    (ho : c = .hex ∨ offset = 0) (hnx : 0 < nx) (hny : 0 < ny) (hnz : 0 < nz) {boundary : Nat → Fin 3 → K}
    (hb : ∀ w < 8, boundary w = T (pos 0 ![(nx : Int), ny, nz] w)) (hU : Upright boundary) :
    setVertices3D norm c aligned boundary nx ny nz offset =
      some ((List.range (nz * ny * nx * treesPerCube c)).map (treeCall c aligned nx ny offset T)) := by
  have hI : Inv 3 T 0 ![(nx : Int), ny, nz] (fun _ => False)
      (⟨boundary, fun _ => 0, fun i => if i = 0 then (nx : Int) else if i = 1 then (ny : Int) else nz⟩ : Box K) := by
    refine ⟨hb, fun a ha => ?_, fun e he hg => hg.elim⟩
    fin_cases a <;> simp
  have hpos : ∀ k, 0 < (![nx, ny, nz] : Fin 3 → Nat) k := by intro k; fin_cases k <;> simpa
  have hn3 : ∀ k : Fin 3, (![(nx : Int), ny, nz] : GridPoint) k = ((![nx, ny, nz] : Fin 3 → Nat) k : Int) := by
    intro k; fin_cases k <;> simp
  have up : ∀ (f : Nat) (hf : f < 6) (Good : Nat → Prop) (B : Box K), Inv 3 T 0 ![(nx : Int), ny, nz] Good B →
      ∃ B', updateFace norm 3 f B = some B' ∧ Inv 3 T 0 ![(nx : Int), ny, nz] (fun e => Good e ∨ e ∈ (faceEdges .hex).getD f []) B' := by
    intro f hf Good B hI
    refine updateFace_ok hn hT (dim := 3) (f := f) (Or.inr rfl) (by omega) (a := ⟨f / 2, by omega⟩) rfl hI ?_ ?_
    · intro b _ _
      have := hpos b
      rw [hn3 b, Pi.zero_apply]; omega
    · intro b w hb hba hw hwf
      refine hR _ (fun j => ?_) b
      have := hn3 j
      simp only [pos, Pi.zero_apply]
      split <;> omega
  obtain ⟨B0, h0, hI⟩ := up 0 (by decide) _ _ hI
  obtain ⟨B1, h1, hI⟩ := up 1 (by decide) _ _ hI
  obtain ⟨B2, h2, hI⟩ := up 2 (by decide) _ _ hI
  obtain ⟨B3, h3, hI⟩ := up 3 (by decide) _ _ hI
  have hI : Inv 3 T 0 ![(nx : Int), ny, nz] (fun _ => True) B3 := by
    refine hI.mono fun e he _ => ?_
    have he : e < 12 := he
    interval_cases e <;> simp [faceEdges]
  obtain ⟨B4, h4, hI⟩ := grow3 hn hT hR hpos (fun k => by have := hn3 k; omega) (f := 1) (by decide) rfl (a := 0) rfl (by simp) hI
  have e4 : Function.update ![(nx : Int), ny, nz] 0 (((![nx, ny, nz] : Fin 3 → Nat) 0 : Int) + 1) = ![(nx : Int) + 1, ny, nz] := by
    funext k; fin_cases k <;> simp
  rw [e4] at hI
  obtain ⟨B5, h5, hI⟩ := grow3 hn hT hR hpos (fun k => by fin_cases k <;> simp) (f := 3) (by decide) rfl (a := 1) rfl (by simp) hI
  have e5 : Function.update ![(nx : Int) + 1, ny, nz] 1 (((![nx, ny, nz] : Fin 3 → Nat) 1 : Int) + 1) = ![(nx : Int) + 1, ny + 1, nz] := by
    funext k; fin_cases k <;> simp
  rw [e5] at hI
  obtain ⟨B6, h6, hI⟩ := grow3 hn hT hR hpos (fun k => by fin_cases k <;> simp) (f := 5) (by decide) rfl (a := 2) rfl (by simp) hI
  have e6 : Function.update ![(nx : Int) + 1, ny + 1, nz] 2 (((![nx, ny, nz] : Fin 3 → Nat) 2 : Int) + 1) =
      ![(nx : Int) + 1, ny + 1, nz + 1] := by
    funext k; fin_cases k <;> simp
  rw [e6] at hI
  have e7 : (0 : GridPoint) = ![0, 0, ((0 : Nat) : Int)] := by funext k; fin_cases k <;> rfl
  rw [e7] at hI
  obtain ⟨⟨B7, out⟩, h7, hI7, hout⟩ := foldlM_range (layer3D norm c aligned nx ny offset)
    (fun z s => Inv 3 T ![0, 0, (z : Int)] ![(nx : Int) + 1, ny + 1, nz + 1] (fun _ => True) s.1 ∧
      s.2 = (List.range (z * ny * nx * treesPerCube c)).map (treeCall c aligned nx ny offset T)) nz
    (fun z hz s hs => by
      obtain ⟨B', out', h, hI', ho'⟩ := layer3D_ok hn hT hR hc ha ho hz hs.1 hs.2
      exact ⟨_, h, hI', ho'⟩)
    (B6, []) ⟨hI, by simp⟩
  have x0 : B7.axes 0 = (nx : Int) + 1 := by simpa using hI7.axes 0 (by decide)
  have x1 : B7.axes 1 = (ny : Int) + 1 := by simpa using hI7.axes 1 (by decide)
  have x2 : B7.axes 2 = 1 := by simpa using hI7.axes 2 (by decide)
  rw [setVertices3D]
  simp only [hU, assertO_true, Option.bind_eq_bind, Option.bind_some, h0, h1, h2, h3, h4, h5, h6, h7, x0, x1, x2]
  exact congrArg some hout

end T8.HypercubePad
