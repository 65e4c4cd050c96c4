import Verif.Props.RbfMesh

/-!
# C107: all nodes of the mesh; cases that meet the hypotheses; where the interpolation fails
-/

namespace DNDSR.Rbf

open DNDSR DNDSR.Rot Matrix

/-- the solver that inverts the matrix -/
noncomputable def exactSolver : Solver := ⟨fun A b => A⁻¹ * b⟩

/-- there is a solver as asked -/
theorem exactSolver_correct : exactSolver.Correct := by
  intro ι _ _ A b h
  show A * (A⁻¹ * b) = b
  rw [← Matrix.mul_assoc, Matrix.mul_nonsing_inv _ h, Matrix.one_mul]

theorem norm_zero : Rot.norm 0 = 0 := by simp [Rot.norm]

theorem phi_zero_ne (k : Kernel) (hk : k ≠ .unknown) (h1 : k ≠ .distance) : phi k 0 ≠ 0 := by
  by_cases h2 : k = .distanceA1
  · subst h2; simp [phi]
  · exact ((phi_decreasing k hk h1 h2).1 0 le_rfl one_pos).ne'

/-- **C107** With a compact kernel any displacements can be met at points that are the radius apart, whatever their number. -/
theorem separated_solvable {n : Nat} (o : Info) (hk : o.kernel ≠ .unknown) (hc : isCompact o.kernel = true) (hR : 0 < o.radius) (xs : Fin n → V3)
    (hx : ∀ i j, i ≠ j → o.radius ≤ Rot.norm (xs i - xs j)) : Solvable (radial o) xs := by
  have h0 : phi o.kernel 0 ≠ 0 := phi_zero_ne _ hk (by rintro h; rw [h] at hc; exact absurd hc (by decide))
  intro ds
  refine ⟨fun x => ∑ i, radial o (Rot.norm (x - xs i)) • ((phi o.kernel 0)⁻¹ • ds i), ⟨_, fun x => rfl⟩, fun j => ?_⟩
  show ∑ i, radial o (Rot.norm (xs j - xs i)) • ((phi o.kernel 0)⁻¹ • ds i) = ds j
  rw [Finset.sum_eq_single j]
  · rw [sub_self, norm_zero, radial, zero_div, smul_smul, mul_inv_cancel₀ h0, one_smul]
  · intro i _ hi
    rw [radial, (compact_iff _ hk).mp hc _ ((one_le_div hR).mpr (hx j i (Ne.symm hi))), zero_smul]
  · intro h; exact absurd (Finset.mem_univ j) h

/-- the interpolation of one displacement -/
theorem one_point (o : Info) (hk : o.kernel ≠ .unknown) (h1 : o.kernel ≠ .distance) (p : V3) :
    Solvable (radial o) (fun _ : Fin 1 => p) ∧ ∀ d : V3, Interpolates (radial o) (fun _ : Fin 1 => p) (fun _ => d)
      fun x => (radial o (Rot.norm (x - p)) * (phi o.kernel 0)⁻¹) • d := by
  have h0 := phi_zero_ne o.kernel hk h1
  have hi : ∀ d : V3, Interpolates (radial o) (fun _ : Fin 1 => p) (fun _ => d)
      fun x => (radial o (Rot.norm (x - p)) * (phi o.kernel 0)⁻¹) • d := by
    intro d
    refine ⟨⟨fun _ => (phi o.kernel 0)⁻¹ • d, fun x => ?_⟩, fun _ => ?_⟩
    · simp [smul_smul]
    · show (radial o (Rot.norm (p - p)) * (phi o.kernel 0)⁻¹) • d = d
      rw [sub_self, norm_zero, radial, zero_div, mul_inv_cancel₀ h0, one_smul]
  refine ⟨fun ds => ?_, hi⟩
  have : ds = fun _ => ds 0 := by funext i; rw [Subsingleton.elim i 0]
  rw [this]
  exact ⟨_, hi (ds 0)⟩

/-- **C107 fails**: the distance is compared with the square of the radius.  With a compact kernel of radius one half, a node that is nearer than the radius, where the
interpolation is not zero, stays. -/
theorem small_radius_cut (S : Solver) : ∃ (o : Info) (xs ds : Fin 1 → V3) (x : V3) (u : V3 → V3),
    o.kernel = .cpc0 ∧ o.radius = 1 / 2 ∧ Solvable (radial o) xs ∧ Interpolates (radial o) xs ds u ∧
      Rot.norm (x - xs 0) < o.radius ∧ u x ≠ 0 ∧ smoothDisp S o xs ds x = .ok 0 := by
  have hn : Rot.norm (![3 / 8, 0, 0] - 0) = 3 / 8 := by
    simp only [Rot.norm, sub_zero, Matrix.cons_val]
    rw [show ((3 : ℝ) / 8) ^ 2 + 0 ^ 2 + 0 ^ 2 = (3 / 8) ^ 2 by ring, Real.sqrt_sq (by norm_num)]
  obtain ⟨hs, hi⟩ := one_point ⟨.cpc0, 1 / 2⟩ (by decide) (by decide) 0
  refine ⟨⟨.cpc0, 1 / 2⟩, fun _ => 0, fun _ => ![1, 0, 0], ![3 / 8, 0, 0], _, rfl, rfl, hs, hi _, ?_, ?_, ?_⟩
  · show Rot.norm (![3 / 8, 0, 0] - 0) < 1 / 2
    rw [hn]; norm_num
  · intro h
    have := congrFun h 0
    simp only [hn, radial, phi, below, Pi.smul_apply, Matrix.cons_val_zero, Pi.zero_apply] at this
    norm_num at this
  · unfold smoothDisp
    rw [dif_pos (by norm_num), if_neg]
    rw [rMin_lt_iff]
    push Not
    intro i
    rw [hn]
    simp only [Info.bound, isCompact]
    norm_num

/-- **C107 fails**: there is no polynomial part, so a boundary that moves as a whole does not take the mesh along: with the kernel and the radius of the default settings a
node one away from the only point found moves half as far. -/
theorem constant_not_kept (S : Solver) (hS : S.Correct) (d : V3) :
    smoothDisp S ⟨.inversedDistanceA1, 1⟩ (fun _ : Fin 1 => 0) (fun _ => d) ![1, 0, 0] = .ok ((1 / 2 : ℝ) • d) := by
  have hn : Rot.norm (![1, 0, 0] - 0) = 1 := by
    simp [Rot.norm]
  obtain ⟨hs, hi⟩ := one_point ⟨.inversedDistanceA1, 1⟩ (by decide) (by decide) 0
  rw [(smoothDisp_spec S hS ⟨.inversedDistanceA1, 1⟩ (by decide) one_pos _ _ hs _ (hi d) ![1, 0, 0]).1 ⟨0, by
    rw [hn]; simp [Info.bound, isCompact]⟩]
  refine congrArg Res.ok ?_
  show (_ * _ : ℝ) • d = _
  congr 1
  rw [hn]
  simp only [radial, phi]
  norm_num

/-- **C107 fails**: the kernel `Distance` cannot meet a displacement at a single point. -/
theorem distance_single (R : ℝ) (p d : V3) (hd : d ≠ 0) : ¬∃ u, Interpolates (radial ⟨.distance, R⟩) (fun _ : Fin 1 => p) (fun _ => d) u := by
  rintro ⟨u, ⟨a, ha⟩, hu⟩
  apply hd
  have := hu 0
  rw [ha] at this
  simpa [norm_zero, radial, phi] using this.symm

/-- two points that lie in one place cannot move differently, whatever the kernel -/
theorem coincident_unsolvable (o : Info) (p : V3) : ¬Solvable (radial o) (fun _ : Fin 2 => p) := by
  intro h
  obtain ⟨u, -, hu⟩ := h fun i _ => if i = 0 then 0 else 1
  have h0 := congrFun (hu 0) 0
  have h1 := congrFun (hu 1) 0
  simp only [if_true] at h0
  rw [h0] at h1
  simp at h1

local instance : LawfulMonad Res := LawfulMonad.mk'
  (id_map := fun x => by cases x <;> rfl)
  (pure_bind := fun _ _ => rfl)
  (bind_assoc := fun x _ _ => by cases x <;> rfl)

theorem mapM_ok {α β : Type} (f : α → Res β) (l : List α) (g : α → β) (h : ∀ a ∈ l, f a = .ok (g a)) : l.mapM f = .ok (l.map g) := by
  induction l with
  | nil => rfl
  | cons x l ih =>
    rw [List.mapM_cons, h x (by simp), ih fun a ha => h a (by simp [ha])]
    rfl

/-- **C107** The points that carry displacements: the nodes that have one, with it, and the fixed nodes, with none. -/
theorem samples_spec (nodes : List Node) (x d : V3) : (x, d) ∈ samples nodes ↔
    ∃ p ∈ nodes, p.x = x ∧ (p.disp 0 ≠ largeReal ∧ d = p.disp ∨ p.disp 0 = largeReal ∧ p.disp 2 = 2 * largeReal ∧ d = 0) := by
  unfold samples
  simp only [List.mem_map, List.mem_filter, Node.known, Node.sample, Prod.mk.injEq]
  refine exists_congr fun p => ?_
  by_cases h : p.disp 0 = largeReal
  · simp only [h, ne_eq, not_true, false_or, if_false, true_and, false_and]
    constructor
    · rintro ⟨⟨a, b⟩, c, e⟩; exact ⟨a, c, of_decide_eq_true b, e.symm⟩
    · rintro ⟨a, c, b, e⟩; exact ⟨⟨a, decide_eq_true b⟩, c, e.symm⟩
  · simp only [h, ne_eq, not_false_iff, true_or, if_true, true_and, false_and, or_false]
    constructor
    · rintro ⟨⟨a, _⟩, c, e⟩; exact ⟨a, c, e.symm⟩
    · rintro ⟨a, c, e⟩; exact ⟨⟨a, decide_eq_true trivial⟩, c, e.symm⟩

/-- what the search finds near a node, with coordinates and displacements apart -/
def foundX (l : List (V3 × V3)) : Fin l.length → V3 := fun i => (l.get i).1
def foundD (l : List (V3 × V3)) : Fin l.length → V3 := fun i => (l.get i).2

open Classical in
/-- the displacement a node should get: its own if it has one, none if it is fixed, else the interpolation near it -/
noncomputable def wanted (o : Info) (u : V3 → V3) (found : List (V3 × V3)) (p : Node) : V3 :=
  if p.disp 0 ≠ largeReal then p.disp
  else if p.disp 2 = 2 * largeReal then 0
  else if ∃ q ∈ found, Rot.norm (p.x - q.1) < o.bound then u p.x
  else 0

/-- **C107** Every node with a displacement moves by it, every fixed node stays, and every other node moves by the interpolation of the points nearest to it, if one of them
is near enough; the call succeeds.  `k` is the number of points the search is asked for. -/
theorem smooth_spec (S : Solver) (hS : S.Correct) (o : Info) (hk : o.kernel ≠ .unknown) (k : Nat) (hk1 : 0 < k)
    (knn : List (V3 × V3) → V3 → List (V3 × V3)) (nodes : List Node) (hknn : ∀ x, IsNearest k (samples nodes) x (knn (samples nodes) x))
    (hp : ∃ p ∈ nodes, p.known) (moved : Nat) (hm : moved ≠ 0)
    (hs : ∀ p ∈ nodes, ¬p.known → Solvable (radial o) (foundX (knn (samples nodes) p.x)))
    (u : Node → V3 → V3)
    (hu : ∀ p ∈ nodes, ¬p.known → Interpolates (radial o) (foundX (knn (samples nodes) p.x)) (foundD (knn (samples nodes) p.x)) (u p))
    (hl : ∀ p ∈ nodes, ¬p.known → u p p.x 0 ≠ largeReal) :
    smooth S o knn moved nodes = .ok (nodes.map fun p => p.x + wanted o (u p) (knn (samples nodes) p.x) p) := by
  have hL : (0 : ℝ) ≠ largeReal := by unfold largeReal; norm_num
  have hne : 0 < (samples nodes).length := by
    obtain ⟨p, hp, hp'⟩ := hp
    have : p.sample ∈ samples nodes := List.mem_map.mpr ⟨p, List.mem_filter.mpr ⟨hp, by simpa using hp'⟩, rfl⟩
    exact List.length_pos_of_mem this
  have hpos : ∀ x, 0 < (knn (samples nodes) x).length := fun x => by rw [(hknn x).count]; omega
  unfold smooth
  rw [if_neg hm]
  refine mapM_ok _ _ _ fun p hpn => ?_
  unfold newDisp wanted
  by_cases hkn : p.known
  · rw [if_pos hkn, Res.ok_bind, Res.pure_eq]
    refine congrArg Res.ok ?_
    unfold place
    by_cases h0 : p.disp 0 ≠ largeReal
    · rw [if_pos h0, if_pos h0]
    · rw [if_neg h0, if_neg h0, if_pos (hkn.resolve_left h0), add_zero]
  · have h0 : ¬p.disp 0 ≠ largeReal := fun h => hkn (.inl h)
    have h2 : ¬p.disp 2 = 2 * largeReal := fun h => hkn (.inr h)
    have spec := smoothDisp_spec S hS o hk (hpos p.x) _ _ (hs p hpn hkn) _ (hu p hpn hkn) p.x
    rw [if_neg hkn, if_neg h0, if_neg h2]
    by_cases hb : ∃ q ∈ knn (samples nodes) p.x, Rot.norm (p.x - q.1) < o.bound
    · rw [if_pos hb]
      obtain ⟨q, hq, hqb⟩ := hb
      obtain ⟨i, hi⟩ := List.mem_iff_get.mp hq
      have := spec.1 ⟨i, by rw [foundX, hi]; exact hqb⟩
      rw [show smoothDisp S o (fun i => ((knn (samples nodes) p.x).get i).1) (fun i => ((knn (samples nodes) p.x).get i).2) p.x = .ok (u p p.x) from this]
      rw [Res.ok_bind, Res.pure_eq, place, if_pos (hl p hpn hkn)]
    · rw [if_neg hb]
      have := spec.2 fun i => by
        by_contra hlt
        exact hb ⟨_, List.get_mem _ i, not_le.mp hlt⟩
      rw [show smoothDisp S o (fun i => ((knn (samples nodes) p.x).get i).1) (fun i => ((knn (samples nodes) p.x).get i).2) p.x = .ok 0 from this]
      rw [Res.ok_bind, Res.pure_eq, place, if_pos (by simpa using hL)]

/-- **C107** Without nodes that moved nothing happens. -/
theorem smooth_none (S : Solver) (o : Info) (knn : List (V3 × V3) → V3 → List (V3 × V3)) (nodes : List Node) :
    smooth S o knn 0 nodes = .ok (nodes.map Node.x) := if_pos rfl

/-- **C107 fails**: nodes on the other boundaries are marked with `3 * largeReal`, which this smoother does not look at; it moves them like inner nodes. -/
theorem other_boundary_moves (S : Solver) (hS : S.Correct) :
    smooth S ⟨.inversedDistanceA1, 1⟩ (fun l _ => l) 1
      [⟨0, ![0, 1, 0]⟩, ⟨![1, 0, 0], ![largeReal, largeReal, 3 * largeReal]⟩] = .ok [![0, 1, 0], ![1, 1 / 2, 0]] := by
  have hL : (0 : ℝ) < largeReal := by unfold largeReal; norm_num
  have hk1 : Node.known ⟨0, ![0, 1, 0]⟩ := .inl (by simpa using hL.ne)
  have hk2 : ¬Node.known ⟨![1, 0, 0], ![largeReal, largeReal, 3 * largeReal]⟩ := by
    rintro (h | h)
    · exact h rfl
    · have h : 3 * largeReal = 2 * largeReal := h
      linarith
  have hs : samples [⟨0, ![0, 1, 0]⟩, ⟨![1, 0, 0], ![largeReal, largeReal, 3 * largeReal]⟩] = [((0 : V3), (![0, 1, 0] : V3))] := by
    unfold samples
    rw [List.filter_cons_of_pos (by simpa using hk1), List.filter_cons_of_neg (by simpa using hk2)]
    simp [Node.sample, hL.ne]
  unfold smooth
  rw [if_neg one_ne_zero, hs, List.mapM_cons, List.mapM_cons, List.mapM_nil]
  have e1 : newDisp S ⟨.inversedDistanceA1, 1⟩ (fun _ => [((0 : V3), (![0, 1, 0] : V3))]) ⟨0, ![0, 1, 0]⟩ = .ok ![0, 1, 0] := if_pos hk1
  have e2 : newDisp S ⟨.inversedDistanceA1, 1⟩ (fun _ => [((0 : V3), (![0, 1, 0] : V3))]) ⟨![1, 0, 0], ![largeReal, largeReal, 3 * largeReal]⟩ =
      .ok ((1 / 2 : ℝ) • ![0, 1, 0]) := by
    refine (if_neg hk2).trans ?_
    have := constant_not_kept S hS ![0, 1, 0]
    rw [← this]
    congr 1
    · funext i; fin_cases i; rfl
    · funext i; fin_cases i; rfl
  rw [e1, e2]
  simp only [Res.ok_bind, Res.pure_eq, place]
  rw [if_pos (by simpa using hL.ne), if_pos (by simpa using hL.ne)]
  congr 2
  · simp
  · congr 1
    ext i
    fin_cases i <;> simp

/-- `smooth_spec` applies to a moved node and an inner node; the search looks for one point -/
example : ∃ (nodes : List Node) (knn : List (V3 × V3) → V3 → List (V3 × V3)) (u : Node → V3 → V3), nodes.length = 2 ∧ (∃ p ∈ nodes, ¬p.known ∧ u p p.x ≠ 0) ∧
    smooth exactSolver ⟨.gaussian, 1⟩ knn 1 nodes =
      .ok (nodes.map fun p => p.x + wanted ⟨.gaussian, 1⟩ (u p) (knn (samples nodes) p.x) p) := by
  have hL : (0 : ℝ) < largeReal := by unfold largeReal; norm_num
  have hk1 : Node.known ⟨0, ![0, 1, 0]⟩ := .inl (by simpa using hL.ne)
  have hk2 : ¬Node.known ⟨![1, 0, 0], ![largeReal, largeReal, largeReal]⟩ := by
    rintro (h | h)
    · exact h rfl
    · have h : largeReal = 2 * largeReal := h
      linarith
  have hs : samples [⟨0, ![0, 1, 0]⟩, ⟨![1, 0, 0], ![largeReal, largeReal, largeReal]⟩] = [((0 : V3), (![0, 1, 0] : V3))] := by
    unfold samples
    rw [List.filter_cons_of_pos (by simpa using hk1), List.filter_cons_of_neg (by simpa using hk2)]
    simp [Node.sample, hL.ne]
  obtain ⟨hsol, hi⟩ := one_point ⟨.gaussian, 1⟩ (by decide) (by decide) 0
  have hX : foundX [((0 : V3), (![0, 1, 0] : V3))] = fun _ : Fin 1 => 0 := by funext i; fin_cases i; rfl
  have hD : foundD [((0 : V3), (![0, 1, 0] : V3))] = fun _ : Fin 1 => ![0, 1, 0] := by funext i; fin_cases i; rfl
  refine ⟨[⟨0, ![0, 1, 0]⟩, ⟨![1, 0, 0], ![largeReal, largeReal, largeReal]⟩], fun l _ => l,
    fun _ x => (radial ⟨.gaussian, 1⟩ (Rot.norm (x - 0)) * (phi .gaussian 0)⁻¹) • ![0, 1, 0], rfl,
    ⟨_, List.mem_cons_of_mem _ (List.mem_singleton.mpr rfl), hk2, ?_⟩,
    smooth_spec exactSolver exactSolver_correct ⟨.gaussian, 1⟩ (by decide) 1 one_pos _ _ ?_ ⟨_, List.mem_cons_self, hk1⟩ 1 one_ne_zero ?_ _ ?_ ?_⟩
  rotate_left
  · intro x
    rw [hs]
    exact ⟨⟨[], by simp, by simp⟩, rfl⟩
  · intro p _ _
    rw [hs, hX]; exact hsol
  · intro p _ _
    rw [hs, hX, hD]; exact hi ![0, 1, 0]
  · intro p _ _
    simpa using hL.ne
  · intro h
    have := congrFun h 1
    simp [radial, phi] at this

/-- the points of a mesh are met: two points farther apart than the radius, and a node between them -/
example : ∃ u, Interpolates (radial ⟨.cpc2, 1⟩) ![0, ![2, 0, 0]] ![![0, 1, 0], ![0, 0, 1]] u ∧
    smoothDisp exactSolver ⟨.cpc2, 1⟩ ![0, ![2, 0, 0]] ![![0, 1, 0], ![0, 0, 1]] ![1 / 2, 0, 0] = .ok (u ![1 / 2, 0, 0]) := by
  have hn : Rot.norm ![2, 0, 0] = 2 := by
    simp only [Rot.norm, Matrix.cons_val]
    rw [show (2 : ℝ) ^ 2 + 0 ^ 2 + 0 ^ 2 = 2 ^ 2 by ring, Real.sqrt_sq (by norm_num)]
  have hs : Solvable (radial ⟨.cpc2, 1⟩) ![0, ![2, 0, 0]] := by
    refine separated_solvable ⟨.cpc2, 1⟩ (by decide) (by decide) one_pos _ fun i j hij => ?_
    fin_cases i <;> fin_cases j
    · exact absurd rfl hij
    · show 1 ≤ Rot.norm (0 - ![2, 0, 0])
      rw [norm_sub_comm, sub_zero, hn]; norm_num
    · show 1 ≤ Rot.norm (![2, 0, 0] - 0)
      rw [sub_zero, hn]; norm_num
    · exact absurd rfl hij
  obtain ⟨u, hu⟩ := hs ![![0, 1, 0], ![0, 0, 1]]
  exact ⟨u, hu, compact_exact_partial exactSolver exactSolver_correct _ (by decide) (by decide) le_rfl (by norm_num) _ _ hs u hu _⟩

/-- the system with polynomial is regular for the corners of a tetrahedron, whatever the kernel -/
example (k : Kernel) (R : ℝ) : IsUnit (polySystem k R ![0, ![1, 0, 0], ![0, 1, 0], ![0, 0, 1]]).det := by
  set P := polyRows ![(0 : V3), ![1, 0, 0], ![0, 1, 0], ![0, 0, 1]] with hP
  let Q : Matrix (Fin 4) (Fin 4) ℝ := !![1, -1, -1, -1; 0, 1, 0, 0; 0, 0, 1, 0; 0, 0, 0, 1]
  have hPQ : P * Q = 1 := by
    have : P = !![1, 1, 1, 1; 0, 1, 0, 0; 0, 0, 1, 0; 0, 0, 0, 1] := by
      ext i j
      fin_cases i <;> fin_cases j <;> rfl
    rw [this]
    ext i j
    fin_cases i <;> fin_cases j <;> simp [Q, Matrix.mul_apply, Fin.sum_univ_succ]
  have hQP : Q * P = 1 := mul_eq_one_comm.mp hPQ
  have hT : Pᵀ * Qᵀ = 1 := by rw [← Matrix.transpose_mul, hQP, Matrix.transpose_one]
  let N := basis k R ![(0 : V3), ![1, 0, 0], ![0, 1, 0], ![0, 0, 1]] ![(0 : V3), ![1, 0, 0], ![0, 1, 0], ![0, 0, 1]]
  refine Matrix.isUnit_det_of_right_inverse (B := Matrix.fromBlocks 0 Q Qᵀ (-(Qᵀ * (N * Q)))) ?_
  rw [polySystem, Matrix.fromBlocks_multiply, ← hP]
  simp only [Matrix.mul_zero, zero_add, Matrix.zero_mul, add_zero, Matrix.mul_neg, ← Matrix.mul_assoc, hT, hPQ, Matrix.one_mul]
  rw [add_neg_cancel, neg_zero, add_zero, Matrix.fromBlocks_one]

end DNDSR.Rbf
