import Verif.Proof.LimProc
import Verif.Props.Limiters
import Verif.Props.LimiterNorm

/-!
# C99: the limiter procedures do the same on all ranks, and what they do

`P` is the whole mesh and `X` the coefficients before. What ranks there are matters only inside `Gives`.
-/

namespace DNDSR.LimProc

open DNDSR.IMap
open DNDSR.Flux (nSides)
open Matrix

variable {N V : Nat} {c : Ctl} {E : Eig V} {P : Prob N V}

/-! ## Helpers -/

theorem facesAt_get {X : Nat → Matrix (Fin N) (Fin V) ℝ} {i j i' : Nat} (hj : j < nSides P.G i) (hm : P.mate i j = some i') :
    (P.facesAt X i)[j]? = some (some ⟨P.into i j, P.outOf i j, X i', P.left i j i', P.right i j i', P.ν (P.F i j)⟩) := by
  simp [Prob.facesAt, hj, Prob.faceAt, hm]

theorem facesAt_some {X : Nat → Matrix (Fin N) (Fin V) ℝ} {i j : Nat} {d : FaceIn N V} (h : (P.facesAt X i)[j]? = some (some d)) :
    j < nSides P.G i ∧ ∃ i', P.mate i j = some i' ∧ d = ⟨P.into i j, P.outOf i j, X i', P.left i j i', P.right i j i', P.ν (P.F i j)⟩ := by
  have hj : j < nSides P.G i := by
    have := (List.getElem?_eq_some_iff.1 h).1
    simpa [Prob.facesAt] using this
  refine ⟨hj, ?_⟩
  cases hm : P.mate i j with
  | none => simp [Prob.facesAt, hj, Prob.faceAt, hm] at h
  | some i' =>
      rw [facesAt_get hj hm] at h
      exact ⟨i', rfl, (Option.some.inj (Option.some.inj h)).symm⟩

theorem outsOf_facesAt {X : Nat → Matrix (Fin N) (Fin V) ℝ} {i : Nat} (W : Nat → Matrix (Fin N) (Fin V) ℝ) (a m : Nat) :
    outsOf (P.facesAt X i) W a m = (List.range (nSides P.G i)).filterMap fun j => (P.mate i j).map fun _ => rowsOf a m (W j) := by
  unfold outsOf
  have hl : (P.facesAt X i).length = nSides P.G i := by simp [Prob.facesAt]
  rw [hl]
  refine List.filterMap_congr fun j hj => ?_
  have hj := List.mem_range.1 hj
  cases hm : P.mate i j with
  | none => simp [Prob.facesAt, hj, Prob.faceAt, hm]
  | some i' => rw [facesAt_get hj hm]; rfl

theorem row_at {q : Nat} {k : Fin N} (hk : Degree c.dim q k.1) :
    ∃ k' : Fin (width c.dim q), ∀ M : Matrix (Fin N) (Fin V) ℝ, rowsOf (modes c.dim (q - 1)) (width c.dim q) M k' = M k := by
  refine ⟨⟨k.1 - modes c.dim (q - 1), by unfold width; obtain ⟨h1, h2⟩ := hk; omega⟩, fun M => ?_⟩
  funext v
  have h1 := hk.1
  have e : modes c.dim (q - 1) + (k.1 - modes c.dim (q - 1)) = k.1 := by omega
  unfold rowsOf
  rw [dif_pos (by show _ + (k.1 - _) < N; rw [e]; exact k.2)]
  congr 1
  exact Fin.ext e

/-- the cells of `DoLimiterWBAP_C` -/
theorem limiterC_cells (hg : Good c N) (E : Eig V) (ifAll : Bool) (P : Prob N V) (X : Nat → Matrix (Fin N) (Fin V) ℝ) :
    ∃ (Y : Nat → Matrix (Fin N) (Fin V) ℝ) (W : Nat → Nat → Matrix (Fin N) (Fin V) ℝ), Gives (fun gc put => limiterC gc c E ifAll put) P X Y ∧
      (∀ i, ¬ P.Limited c ifAll i → Y i = X i) ∧
      ∀ i, P.Limited c ifAll i → ∀ q, 1 ≤ q → q ≤ c.maxOrder → Level c E (P.facesAt X i) (X i) (Y i) (W i) q := by
  classical
  choose Y W hY hL using fun i => cellC_exists hg E (P.facesAt X i) (X i)
  refine ⟨fun i => if P.Limited c ifAll i then Y i else X i, W, limiterC_gives hg E ifAll (fun i hi => if_neg hi) (fun i hi new => ?_), fun i hi => if_neg hi, ?_⟩
  · rw [if_pos hi]; exact hY i new
  · intro i hi q h1 h2
    simp only [if_pos hi]; exact hL i q h1 h2

theorem degree_of (hg : Good c N) (k : Fin N) : ∃ q, 1 ≤ q ∧ q ≤ c.maxOrder ∧ Degree c.dim q k.1 :=
  degree_exists hg.dim (by have := k.2; have := hg.size; omega)

theorem degree_unique {dim q q' k : Nat} (hd : dim = 2 ∨ dim = 3) (h : q ≤ 3) (h' : q' ≤ 3) (hk : Degree dim q k) (hk' : Degree dim q' k) : q = q' := by
  by_contra hne
  rcases Nat.lt_or_ge q q' with hl | hl
  · have := modes_mono hd (p := q) (q := q' - 1) (by omega) (by omega)
    have := hk.2
    have := hk'.1
    omega
  · have := modes_mono hd (p := q') (q := q - 1) (by omega) (by omega)
    have := hk'.2
    have := hk.1
    omega

/-- the rows that the multi-way limiter gives -/
theorem multi_row (hn : c.normWBAP = false) {q : Nat} {k : Fin N} (hk : Degree c.dim q k.1) {X : Nat → Matrix (Fin N) (Fin V) ℝ} {i : Nat} {x Y : Matrix (Fin N) (Fin V) ℝ}
    {W : Nat → Matrix (Fin N) (Fin V) ℝ} (h : multiway c (rowsOf (modes c.dim (q - 1)) (width c.dim q) x)
      (outsOf (P.facesAt X i) W (modes c.dim (q - 1)) (width c.dim q)) = .ok (rowsOf (modes c.dim (q - 1)) (width c.dim q) Y)) (v : Fin V) :
    Y k v = Lim.wbapMulti c.nStd (x k v) ((List.range (nSides P.G i)).filterMap fun j => (P.mate i j).map fun _ => W j k v) := by
  rw [multiway, if_neg (by rw [hn]; simp)] at h
  obtain ⟨k', hk'⟩ := row_at (V := V) hk
  have e := congrFun (congrFun (Res.ok.inj h) k') v
  simp only [hk'] at e
  rw [← e, outsOf_facesAt, List.map_filterMap]
  congr 1
  refine List.filterMap_congr fun j _ => ?_
  cases P.mate i j with
  | none => rfl
  | some i' => simp [hk']

/-- the rows of a candidate -/
theorem face_row {f : ℝ → ℝ → ℝ} (hf : Scalar c f) {T T' : (Fin V → ℝ) → (Fin V → ℝ) → (Fin 3 → ℝ) → (Fin V → ℝ) → Fin V → ℝ} (hE : ByRow E T T') {d : FaceIn N V}
    {q : Nat} {k : Fin N} (hk : Degree c.dim q k.1) {x z w : Matrix (Fin N) (Fin V) ℝ}
    (h : candidate c E d (modes c.dim (q - 1)) (width c.dim q) (rowsOf (modes c.dim (q - 1)) (width c.dim q) x) z = .ok (rowsOf (modes c.dim (q - 1)) (width c.dim q) w)) :
    w k = T' d.uL d.uR d.nrm fun v => f (T d.uL d.uR d.nrm (x k) v) (T d.uL d.uR d.nrm ((d.sec * z) k) v) := by
  obtain ⟨k', hk'⟩ := row_at (V := V) hk
  have hb : ∀ t o : Matrix (Fin (width c.dim q)) (Fin V) ℝ, biway c t o = .ok fun k v => f (t k v) (o k v) := by
    intro t o
    rcases hf with ⟨h0, rfl⟩ | ⟨h0, rfl⟩ | ⟨h0, rfl⟩ <;> simp [biway, h0]
  unfold candidate at h
  simp only [hb, Res.ok_bind] at h
  simp only [(hE _ _ _ _ _).1, (hE _ _ _ _ _).2] at h
  have e := congrFun (Res.ok.inj h) k'
  simp only [hk'] at e
  exact e.symm

/-! ## The theorems -/

/-- **C99** `DoLimiterWBAP_C` returns and gives the same coefficients on every distribution of the cells to ranks. Cells that are not to be limited
keep theirs; without `normWBAP` a coefficient that is zero stays zero. -/
theorem limiterC_same (hg : Good c N) (E : Eig V) (ifAll : Bool) (P : Prob N V) (X : Nat → Matrix (Fin N) (Fin V) ℝ) :
    ∃ Y : Nat → Matrix (Fin N) (Fin V) ℝ, Gives (fun gc put => limiterC gc c E ifAll put) P X Y ∧ (∀ i, ¬ P.Limited c ifAll i → Y i = X i) ∧
      (c.normWBAP = false → ∀ i k v, X i k v = 0 → Y i k v = 0) := by
  obtain ⟨Y, W, h1, h2, h3⟩ := limiterC_cells hg E ifAll P X
  refine ⟨Y, h1, h2, fun hn i k v h0 => ?_⟩
  by_cases hi : P.Limited c ifAll i
  · obtain ⟨q, q1, q2, hk⟩ := degree_of hg k
    rw [multi_row hn hk (h3 i hi q q1 q2).cell v]
    exact Lim.multi_zero _ _ _ (Or.inl h0)
  · rw [h2 i hi]; exact h0

/-- **C99** `DoLimiterWBAP_3` likewise. -/
theorem limiter3_same (hg : Good c N) (E : Eig V) (ifAll : Bool) (P : Prob N V) (X : Nat → Matrix (Fin N) (Fin V) ℝ) :
    ∃ Y : Nat → Matrix (Fin N) (Fin V) ℝ, Gives (fun gc put => limiter3 gc c E ifAll put) P X Y ∧ (∀ i, ¬ P.Limited c ifAll i → Y i = X i) ∧
      (c.normWBAP = false → ∀ i k v, X i k v = 0 → Y i k v = 0) := by
  obtain ⟨Z, z1, z2, z3, z4⟩ := limiter3_gives hg E ifAll P X
  refine ⟨Z 0, z4, fun i hi => z2 i hi 0 (Nat.zero_le _), fun hn i k v h0 => ?_⟩
  by_cases hi : P.Limited c ifAll i
  · have step : ∀ p, p ≤ c.maxOrder → Z (c.maxOrder - p) i k v = 0 := by
      intro p
      induction p with
      | zero => intro _; rw [Nat.sub_zero, z1]; exact h0
      | succ p ih =>
          intro hp
          have hz := ih (by omega)
          obtain ⟨W, hW⟩ := z3 i hi (c.maxOrder - p) (by omega) (by omega)
          have e : c.maxOrder - p - 1 = c.maxOrder - (p + 1) := by omega
          by_cases hk : Degree c.dim (c.maxOrder - p) k.1
          · have := multi_row hn hk hW.cell v
            rw [e] at this
            rw [this]
            exact Lim.multi_zero _ _ _ (Or.inl hz)
          · have := hW.rest k hk
            rw [e] at this
            rw [this]; exact hz
    have := step c.maxOrder le_rfl
    rwa [Nat.sub_self] at this
  · rw [z2 i hi 0 (Nat.zero_le _)]; exact h0

/-- **C99** What `DoLimiterWBAP_C` gives. `W i j` is what face `j` of cell `i` proposes. Its coefficients of degree `q` are the two-way limiter of
the cell's own ones and of the neighbour's in the base functions of the cell, both taken by `T` to other variables and back by `T'`; of the
neighbour, the coefficients of higher degree are first replaced by those that the face has proposed already. The cell's new coefficients are
the multi-way limiter of its own ones and of what its faces propose. -/
theorem limiterC_values (hg : Good c N) {f : ℝ → ℝ → ℝ} (hf : Scalar c f) (hn : c.normWBAP = false)
    {T T' : (Fin V → ℝ) → (Fin V → ℝ) → (Fin 3 → ℝ) → (Fin V → ℝ) → Fin V → ℝ} (hE : ByRow E T T') (ifAll : Bool) (P : Prob N V) (X : Nat → Matrix (Fin N) (Fin V) ℝ) :
    ∃ (Y : Nat → Matrix (Fin N) (Fin V) ℝ) (W : Nat → Nat → Matrix (Fin N) (Fin V) ℝ), Gives (fun gc put => limiterC gc c E ifAll put) P X Y ∧
      ∀ i, P.Limited c ifAll i →
        (∀ k v, Y i k v = Lim.wbapMulti c.nStd (X i k v) ((List.range (nSides P.G i)).filterMap fun j => (P.mate i j).map fun _ => W i j k v)) ∧
        ∀ j < nSides P.G i, ∀ i', P.mate i j = some i' → ∀ q, 1 ≤ q → q ≤ c.maxOrder → ∀ k : Fin N, Degree c.dim q k.1 →
          ∃ seen : Matrix (Fin N) (Fin V) ℝ,
            (∀ (k' : Fin N) v, k'.1 < modes c.dim q → seen k' v = X i' k' v) ∧
            (∀ (k' : Fin N) v, modes c.dim q ≤ k'.1 → seen k' v = ∑ k'' : Fin N with modes c.dim q ≤ k''.1, P.outOf i j k' k'' * W i j k'' v) ∧
            W i j k = T' (P.left i j i') (P.right i j i') (P.ν (P.F i j)) fun v =>
              f (T (P.left i j i') (P.right i j i') (P.ν (P.F i j)) (X i k) v) (T (P.left i j i') (P.right i j i') (P.ν (P.F i j)) ((P.into i j * seen) k) v) := by
  obtain ⟨Y, W, h1, h2, h3⟩ := limiterC_cells hg E ifAll P X
  refine ⟨Y, W, h1, fun i hi => ⟨fun k v => ?_, fun j hj i' hm q q1 q2 k hk => ?_⟩⟩
  · obtain ⟨q, q1, q2, hk⟩ := degree_of hg k
    exact multi_row hn hk (h3 i hi q q1 q2).cell v
  · have := face_row hf hE hk ((h3 i hi q q1 q2).face j _ (facesAt_get hj hm))
    refine ⟨_, fun k' v hk' => ?_, fun k' v hk' => ?_, this⟩
    · simp only [mixed, if_neg (Nat.not_le.2 hk')]
    · simp only [mixed, if_pos hk', Finset.sum_filter]

/-- **C99** What `DoLimiterWBAP_3` gives. It goes from the highest degree to the lowest: `Z q` are the coefficients of all cells when all degrees
above `q` are done. Each stage changes only the coefficients of its degree, and all cells see the neighbours as they were before the stage. -/
theorem limiter3_values (hg : Good c N) {f : ℝ → ℝ → ℝ} (hf : Scalar c f) (hn : c.normWBAP = false)
    {T T' : (Fin V → ℝ) → (Fin V → ℝ) → (Fin 3 → ℝ) → (Fin V → ℝ) → Fin V → ℝ} (hE : ByRow E T T') (ifAll : Bool) (P : Prob N V) (X : Nat → Matrix (Fin N) (Fin V) ℝ) :
    ∃ Z : Nat → Nat → Matrix (Fin N) (Fin V) ℝ, Z c.maxOrder = X ∧ Gives (fun gc put => limiter3 gc c E ifAll put) P X (Z 0) ∧
      ∀ i q, 1 ≤ q → q ≤ c.maxOrder →
        (¬ P.Limited c ifAll i → Z (q - 1) i = Z q i) ∧
        (P.Limited c ifAll i → ∀ k : Fin N,
          (¬ Degree c.dim q k.1 → Z (q - 1) i k = Z q i k) ∧
          (Degree c.dim q k.1 → ∀ v, Z (q - 1) i k v = Lim.wbapMulti c.nStd (Z q i k v) ((List.range (nSides P.G i)).filterMap fun j => (P.mate i j).map fun i' =>
            T' (P.left i j i') (P.right i j i') (P.ν (P.F i j)) (fun v =>
              f (T (P.left i j i') (P.right i j i') (P.ν (P.F i j)) (Z q i k) v) (T (P.left i j i') (P.right i j i') (P.ν (P.F i j)) ((P.into i j * Z q i') k) v)) v))) := by
  obtain ⟨Z, z1, z2, z3, z4⟩ := limiter3_gives hg E ifAll P X
  refine ⟨Z, z1, z4, fun i q q1 q2 => ⟨fun hi => by rw [z2 i hi _ (by omega), z2 i hi _ q2], fun hi k => ?_⟩⟩
  obtain ⟨W, hW⟩ := z3 i hi q q1 q2
  refine ⟨hW.rest k, fun hk v => ?_⟩
  rw [multi_row hn hk hW.cell v]
  congr 1
  refine List.filterMap_congr fun j hj => ?_
  cases hm : P.mate i j with
  | none => rfl
  | some i' =>
      have := face_row hf hE hk (hW.face j _ (facesAt_get (List.mem_range.1 hj) hm))
      simp only [Option.map_some, this]

/-! ## Polynomials -/

theorem minmod_self (x : ℝ) : Lim.minmod x x = x := by
  obtain ⟨h1, h2, -⟩ := Lim.minmod_spec x x
  rcases le_total 0 x with h | h
  · rw [h1 h h, min_self]
  · rw [h2 h h, max_self]

theorem biway_self (hg : Good c N) (hb : c.biway = 1 ∨ c.biway = 3) {q : Nat} (h1 : 1 ≤ q) (h3 : q ≤ 3) (t : Matrix (Fin (width c.dim q)) (Fin V) ℝ) : biway c t t = .ok t := by
  rcases hb with hb | hb
  · simp [biway, hb, minmod_self]
  · obtain ⟨w, hw⟩ := weights_some hg.dim h1 h3
    have hs : ∀ u : Fin (width c.dim q) → ℝ, Lim.memmCore w u u = u := by
      intro u
      rw [(Lim.memmCore_select (Lim.weights_nonneg hw) u u).2.2 rfl]
      funext k; ring
    simp only [biway, hb, hw, hs]
    rfl

/-- a face that sees the cell's own coefficients proposes them -/
theorem candidate_self (hg : Good c N) (hb : c.biway = 1 ∨ c.biway = 3) {d : FaceIn N V} {q : Nat} (h1 : 1 ≤ q) (h3 : q ≤ 3) {x z w : Matrix (Fin N) (Fin V) ℝ}
    (hinv : ∀ m B, E.fmi d.uL d.uR d.nrm m (E.fm d.uL d.uR d.nrm m B) = B) (hz : ∀ k : Fin N, Degree c.dim q k.1 → (d.sec * z) k = x k)
    (h : candidate c E d (modes c.dim (q - 1)) (width c.dim q) (rowsOf (modes c.dim (q - 1)) (width c.dim q) x) z = .ok (rowsOf (modes c.dim (q - 1)) (width c.dim q) w))
    {k : Fin N} (hk : Degree c.dim q k.1) : w k = x k := by
  have e : rowsOf (modes c.dim (q - 1)) (width c.dim q) (d.sec * z) = rowsOf (modes c.dim (q - 1)) (width c.dim q) x :=
    rowsOf_congr fun k a b => hz k ⟨a, by unfold width at b; have := modes_lt hg.dim h1 h3; omega⟩
  unfold candidate at h
  simp only [e, biway_self hg hb h1 h3, Res.ok_bind, hinv] at h
  obtain ⟨k', hk'⟩ := row_at (V := V) hk
  have := congrFun (Res.ok.inj h) k'
  rw [hk', hk'] at this
  exact this.symm

theorem filterMap_const (l : List Nat) (g : Nat → Option Nat) (x : ℝ) (w : Nat → ℝ) (h : ∀ j ∈ l, ∀ i', g j = some i' → w j = x) :
    ∃ n, (l.filterMap fun j => (g j).map fun _ => w j) = List.replicate n x := by
  refine ⟨_, List.eq_replicate_of_mem ?_⟩
  intro b hb
  obtain ⟨j, hj, e⟩ := List.mem_filterMap.1 hb
  obtain ⟨i', e1, e2⟩ := Option.map_eq_some_iff.1 e
  rw [← e2]; exact h j hj i' e1

/-- **C99** A polynomial is kept by `DoLimiterWBAP_C`: where all neighbours of a cell have the same polynomial as the cell, its coefficients change by no
more than the guard of the multi-way limiter, with the two-way limiters 1 and 3 and whatever the characteristic variables are. -/
theorem limiterC_polynomial (hg : Good c N) (hb : c.biway = 1 ∨ c.biway = 3) (hn : c.normWBAP = false) (hs : 0 < c.nStd) (E : Eig V)
    (ifAll : Bool) (P : Prob N V)
    (hinv : ∀ i, ∀ j < nSides P.G i, ∀ i', P.mate i j = some i' → ∀ m B, E.fmi (P.left i j i') (P.right i j i') (P.ν (P.F i j)) m
      (E.fm (P.left i j i') (P.right i j i') (P.ν (P.F i j)) m B) = B) (X : Nat → Matrix (Fin N) (Fin V) ℝ) :
    ∃ Y : Nat → Matrix (Fin N) (Fin V) ℝ, Gives (fun gc put => limiterC gc c E ifAll put) P X Y ∧
      ∀ i, P.Smooth X i → P.Triangular c i → ∀ k v, |Y i k v - X i k v| ≤ 1 / 10 ^ 50 := by
  obtain ⟨Y, W, h1, h2, h3⟩ := limiterC_cells hg E ifAll P X
  refine ⟨Y, h1, fun i hsm htr k v => ?_⟩
  by_cases hi : P.Limited c ifAll i
  · have hW : ∀ j < nSides P.G i, ∀ i', P.mate i j = some i' → ∀ p, p ≤ c.maxOrder → ∀ k : Fin N, modes c.dim (c.maxOrder - p) ≤ k.1 → W i j k = X i k := by
      intro j hj i' hm p
      induction p with
      | zero =>
          intro _ k hk
          have := k.2
          have := hg.size
          rw [Nat.sub_zero] at hk
          omega
      | succ p ih =>
          intro hp k hk
          have ih := ih (by omega)
          rcases Nat.lt_or_ge k.1 (modes c.dim (c.maxOrder - p)) with hlt | hge
          · have e : c.maxOrder - p - 1 = c.maxOrder - (p + 1) := by omega
            have hk' : Degree c.dim (c.maxOrder - p) k.1 := ⟨by rw [e]; exact hk, hlt⟩
            have ho := hg.order
            refine candidate_self hg hb (by omega) (by omega) (hinv i j hj i' hm) ?_ ((h3 i hi (c.maxOrder - p) (by omega) (by omega)).face j _ (facesAt_get hj hm)) hk'
            intro k1 _
            have hmix : mixed ⟨P.into i j, P.outOf i j, X i', P.left i j i', P.right i j i', P.ν (P.F i j)⟩ (modes c.dim (c.maxOrder - p)) (W i j) = X i' := by
              rw [mixed_congr _ (w' := X i) ih]
              funext k2 v2
              unfold mixed
              split
              · next hk2 =>
                rw [← (hsm j hj i' hm).2, Matrix.mul_apply]
                refine Finset.sum_congr rfl fun k3 _ => ?_
                split
                · rfl
                · next hk3 => rw [htr j hj _ k2 k3 hk2 (by omega), zero_mul]
              · rfl
            rw [hmix]
            exact congrFun (hsm j hj i' hm).1 k1
          · exact ih k hge
    obtain ⟨q, q1, q2, hk⟩ := degree_of hg k
    rw [multi_row hn hk (h3 i hi q q1 q2).cell v]
    obtain ⟨n, e⟩ := filterMap_const (List.range (nSides P.G i)) (P.mate i) (X i k v) (fun j => W i j k v) (fun j hj i' hm => by
      show W i j k v = _
      rw [hW j (List.mem_range.1 hj) i' hm c.maxOrder le_rfl k (by rw [Nat.sub_self, modes_zero hg.dim]; exact Nat.zero_le _)])
    rw [e]
    exact Lim.multi_agree hs _ _
  · rw [h2 i hi, sub_self, abs_zero]; positivity

/-- **C99** `DoLimiterWBAP_3` keeps linear fields: no cell has coefficients above the first degree, and all neighbours of the cell have its polynomial. -/
theorem limiter3_linear (hg : Good c N) (hb : c.biway = 1 ∨ c.biway = 3) (hn : c.normWBAP = false) (hs : 0 < c.nStd) (E : Eig V)
    (ifAll : Bool) (P : Prob N V)
    (hinv : ∀ i, ∀ j < nSides P.G i, ∀ i', P.mate i j = some i' → ∀ m B, E.fmi (P.left i j i') (P.right i j i') (P.ν (P.F i j)) m
      (E.fm (P.left i j i') (P.right i j i') (P.ν (P.F i j)) m B) = B) (X : Nat → Matrix (Fin N) (Fin V) ℝ)
    (hlin : ∀ i (k : Fin N) v, modes c.dim 1 ≤ k.1 → X i k v = 0) :
    ∃ Y : Nat → Matrix (Fin N) (Fin V) ℝ, Gives (fun gc put => limiter3 gc c E ifAll put) P X Y ∧
      ∀ i, P.Smooth X i → ∀ k v, |Y i k v - X i k v| ≤ 1 / 10 ^ 50 := by
  obtain ⟨Z, z1, z2, z3, z4⟩ := limiter3_gives hg E ifAll P X
  have hZ : ∀ p, p < c.maxOrder → Z (c.maxOrder - p) = X := by
    intro p
    induction p with
    | zero => intro _; rw [Nat.sub_zero, z1]
    | succ p ih =>
        intro hp
        have ih := ih (by omega)
        have e : c.maxOrder - p - 1 = c.maxOrder - (p + 1) := by omega
        funext i
        by_cases hi : P.Limited c ifAll i
        · obtain ⟨W, hW⟩ := z3 i hi (c.maxOrder - p) (by omega) (by omega)
          rw [e, ih] at hW
          funext k v
          by_cases hk : Degree c.dim (c.maxOrder - p) k.1
          · have h0 : X i k v = 0 := hlin i k v (le_trans (modes_mono hg.dim (by omega) (by have := hg.order; omega)) hk.1)
            rw [multi_row hn hk hW.cell v, h0]
            exact Lim.multi_zero _ _ _ (Or.inl rfl)
          · rw [hW.rest k hk]
        · rw [z2 i hi _ (by omega)]
  refine ⟨Z 0, z4, fun i hsm k v => ?_⟩
  obtain ⟨q, q1, q2, _⟩ := degree_of hg k
  by_cases hi : P.Limited c ifAll i
  · have h1 : Z 1 = X := by
      have := hZ (c.maxOrder - 1) (by omega)
      rwa [show c.maxOrder - (c.maxOrder - 1) = 1 by omega] at this
    obtain ⟨W, hW⟩ := z3 i hi 1 le_rfl (by omega)
    rw [h1] at hW
    by_cases hk : Degree c.dim 1 k.1
    · have := multi_row hn hk hW.cell v
      simp only [Nat.sub_self] at this
      rw [this]
      obtain ⟨n, e⟩ := filterMap_const (List.range (nSides P.G i)) (P.mate i) (X i k v) (fun j => W j k v) (fun j hj i' hm => by
        show W j k v = _
        have hj := List.mem_range.1 hj
        rw [candidate_self hg hb le_rfl (by omega) (hinv i j hj i' hm) (fun k1 _ => congrFun (hsm j hj i' hm).1 k1) (hW.face j _ (facesAt_get hj hm)) hk])
      rw [e]
      exact Lim.multi_agree hs _ _
    · have := hW.rest k hk
      simp only [Nat.sub_self] at this
      rw [this, sub_self, abs_zero]; positivity
  · rw [z2 i hi 0 (Nat.zero_le _), sub_self, abs_zero]; positivity

/-! ## Never steeper -/

theorem minmod_le (x y : ℝ) : (0 ≤ x → 0 ≤ Lim.minmod x y ∧ Lim.minmod x y ≤ x) ∧ (x ≤ 0 → x ≤ Lim.minmod x y ∧ Lim.minmod x y ≤ 0) := by
  obtain ⟨h1, h2, h3⟩ := Lim.minmod_spec x y
  constructor <;> intro h
  · rcases le_total 0 y with hy | hy
    · rw [h1 h hy]; exact ⟨le_min h hy, min_le_left _ _⟩
    · rw [h3 (mul_nonpos_of_nonneg_of_nonpos h hy)]; exact ⟨le_rfl, h⟩
  · rcases le_total 0 y with hy | hy
    · rw [h3 (mul_nonpos_of_nonpos_of_nonneg h hy)]; exact ⟨h, le_rfl⟩
    · rw [h2 h hy]; exact ⟨le_max_left _ _, max_le h hy⟩

theorem multi_steep {n : ℝ} (hs : 0 < n) {x : ℝ} {us : List ℝ} (h : ∀ u ∈ us, ∃ y, u = Lim.minmod x y) :
    (0 ≤ x → 0 ≤ Lim.wbapMulti n x us ∧ Lim.wbapMulti n x us ≤ x + 1 / 10 ^ 50) ∧ (x ≤ 0 → x - 1 / 10 ^ 50 ≤ Lim.wbapMulti n x us ∧ Lim.wbapMulti n x us ≤ 0) := by
  have hp : (0 : ℝ) < 1 / 10 ^ 50 := by positivity
  by_cases h0 : x = 0 ∨ 0 ∈ us
  · rw [Lim.multi_zero n x us h0]
    exact ⟨fun h => ⟨le_rfl, by linarith⟩, fun h => ⟨by linarith, le_rfl⟩⟩
  · push Not at h0
    have hne : ∀ u ∈ us, u ≠ 0 := fun u hu e => h0.2 (e ▸ hu)
    constructor <;> intro hx
    · refine Lim.multi_bounds hs hne ⟨hx, by linarith⟩ fun u hu => ?_
      obtain ⟨y, e⟩ := h u hu
      obtain ⟨a, b⟩ := (minmod_le x y).1 hx
      rw [← e] at a b
      exact ⟨fun _ => ⟨by linarith, by linarith⟩, fun hl => absurd a (by linarith)⟩
    · refine Lim.multi_bounds hs hne ⟨by linarith, hx⟩ fun u hu => ?_
      obtain ⟨y, e⟩ := h u hu
      obtain ⟨a, b⟩ := (minmod_le x y).2 hx
      rw [← e] at a b
      exact ⟨fun hl => absurd b (by linarith), fun _ => ⟨by linarith, by linarith⟩⟩

theorem notSteeper_self (x : ℝ) : NotSteeper x x := by
  have hp : (0 : ℝ) < 1 / 10 ^ 50 := by positivity
  exact ⟨fun h => ⟨h, by linarith⟩, fun h => ⟨by linarith, h⟩⟩

/-- **C99** With minmod and no change of variables no coefficient changes its sign or grows, in both procedures. -/
theorem limiter_not_steeper (hg : Good c N) (hb : c.biway = 1) (hn : c.normWBAP = false) (hs : 0 < c.nStd)
    (hE : ByRow E (fun _ _ _ u => u) (fun _ _ _ u => u)) (ifAll : Bool) (P : Prob N V) (X : Nat → Matrix (Fin N) (Fin V) ℝ) :
    (∃ Y : Nat → Matrix (Fin N) (Fin V) ℝ, Gives (fun gc put => limiterC gc c E ifAll put) P X Y ∧ ∀ i k v, NotSteeper (X i k v) (Y i k v)) ∧
    ∃ Y : Nat → Matrix (Fin N) (Fin V) ℝ, Gives (fun gc put => limiter3 gc c E ifAll put) P X Y ∧ ∀ i k v, NotSteeper (X i k v) (Y i k v) := by
  have hf : Scalar c Lim.minmod := Or.inr (Or.inl ⟨hb, rfl⟩)
  constructor
  · obtain ⟨Y, W, h1, h2, h3⟩ := limiterC_cells hg E ifAll P X
    refine ⟨Y, h1, fun i k v => ?_⟩
    by_cases hi : P.Limited c ifAll i
    · obtain ⟨q, q1, q2, hk⟩ := degree_of hg k
      rw [multi_row hn hk (h3 i hi q q1 q2).cell v]
      refine multi_steep hs fun u hu => ?_
      obtain ⟨j, hj, e⟩ := List.mem_filterMap.1 hu
      obtain ⟨i', e1, e2⟩ := Option.map_eq_some_iff.1 e
      rw [← e2, face_row hf hE hk ((h3 i hi q q1 q2).face j _ (facesAt_get (List.mem_range.1 hj) e1))]
      exact ⟨_, rfl⟩
    · rw [h2 i hi]; exact notSteeper_self _
  · obtain ⟨Z, z1, z2, z3, z4⟩ := limiter3_gives hg E ifAll P X
    refine ⟨Z 0, z4, fun i k v => ?_⟩
    by_cases hi : P.Limited c ifAll i
    · obtain ⟨q, q1, q2, hk⟩ := degree_of hg k
      have ho := hg.order
      have stay : ∀ n q', q' ≤ c.maxOrder → n ≤ q' → (∀ p, q' - n < p → p ≤ q' → p ≠ q) → Z (q' - n) i k = Z q' i k := by
        intro n q' hq'
        induction n with
        | zero => intro _ _; rfl
        | succ n ih =>
            intro hn hne
            rw [← ih (by omega) (fun p h1 h2 => hne p (by omega) h2)]
            obtain ⟨W, hW⟩ := z3 i hi (q' - n) (by omega) (by omega)
            have := hW.rest k (fun hk' => hne (q' - n) (by omega) (by omega) (degree_unique hg.dim (by omega) (by omega) hk' hk))
            rwa [show q' - n - 1 = q' - (n + 1) by omega] at this
      have hlo : Z 0 i k = Z (q - 1) i k := by
        have := stay (q - 1) (q - 1) (by omega) le_rfl (fun p _ h2 => by omega)
        rwa [Nat.sub_self] at this
      have hhi : Z q i k = X i k := by
        have := stay (c.maxOrder - q) c.maxOrder le_rfl (by omega) (fun p h1 h2 => by omega)
        rwa [show c.maxOrder - (c.maxOrder - q) = q by omega, z1] at this
      rw [hlo]
      obtain ⟨W, hW⟩ := z3 i hi q q1 q2
      rw [multi_row hn hk hW.cell v, hhi]
      refine multi_steep hs fun u hu => ?_
      obtain ⟨j, hj, e⟩ := List.mem_filterMap.1 hu
      obtain ⟨i', e1, e2⟩ := Option.map_eq_some_iff.1 e
      rw [← e2, face_row hf hE hk (hW.face j _ (facesAt_get (List.mem_range.1 hj) e1)), hhi]
      exact ⟨_, rfl⟩
    · rw [z2 i hi 0 (Nat.zero_le _)]; exact notSteeper_self _

/-! ## Where the code falls short -/

theorem sweep_each {body : Nat → Res (Matrix (Fin N) (Fin V) ℝ)} : ∀ (cs : List Nat) (x y : List (Matrix (Fin N) (Fin V) ℝ)),
    RecIt.sweep (fun l _ => body l) cs x = .ok y → ∀ l ∈ cs, ∃ z, body l = .ok z := by
  intro cs
  induction cs with
  | nil => intro _ _ _ l hl; cases hl
  | cons a cs ih =>
      intro x y h l hl
      simp only [RecIt.sweep] at h
      obtain ⟨z, hz, h⟩ := (Res.bind_ok_iff _ _ _).1 h
      rcases List.mem_cons.1 hl with rfl | hl
      · exact ⟨z, hz⟩
      · exact ih _ _ h l hl

theorem multiway_3d (hn : c.normWBAP = true) {m : Nat} (hm : m = 6 ∨ m = 10) (t : Matrix (Fin m) (Fin V) ℝ) (us : List (Matrix (Fin m) (Fin V) ℝ)) :
    multiway c t us = .abort := by
  rw [multiway, if_pos hn]
  rcases hm with rfl | rfl <;> simp [Lim.weights]

/-- In three dimensions and with base functions above the first degree, neither procedure ever returns with `normWBAP`, as soon as one cell is to be
limited: the multi-way limiter is the one for two dimensions, which aborts on the number of base functions. -/
theorem norm_3d_fails (hd : c.dim = 3) (hn : c.normWBAP = true) (ho : 2 ≤ c.maxOrder) (E : Eig V) (ifAll : Bool) {rs : List (Rk N V)} {r l : Nat} {s : Rk N V} {σ : ℝ}
    (hs : rs[r]? = some s) (hl : l < s.sys.n) (hσ : s.si[l]? = some σ) (hlim : ifAll = true ∨ c.threshold ≤ σ) (gc : GOM) (putIntoNew : Bool) (rs' : List (Rk N V)) :
    limiterC gc c E ifAll putIntoNew rs ≠ .ok rs' ∧ limiter3 gc c E ifAll putIntoNew rs ≠ .ok rs' := by
  have hc : ∀ σ' : ℝ, idx s.si l = .ok σ' → ¬ ((!ifAll) = true ∧ σ' < c.threshold) := by
    intro σ' h' ⟨h1, h2⟩
    rw [(idx_ok_iff _ _ _).2 hσ] at h'
    cases h'
    rcases hlim with h | h
    · rw [h] at h1; cases h1
    · linarith
  have hlims : ∀ l, limits c.dim c.maxOrder = .ok l → l.2 - l.1 = 6 ∨ l.2 - l.1 = 10 := by
    intro l h
    unfold limits at h
    rw [hd, if_neg (by omega)] at h
    split at h
    · cases h; simp
    · split at h
      · cases h; simp
      · rw [if_neg (by omega)] at h; cases h
  constructor
  · intro h
    obtain ⟨a, ha, -⟩ := (Res.bind_ok_iff _ _ _).1 h
    obtain ⟨b, -, hb⟩ := ((forRanks_ok _ _ _ _).1 ha).2 r s hs
    obtain ⟨y, hy, -⟩ := (Res.bind_ok_iff _ _ _).1 hb
    obtain ⟨z, hz⟩ := sweep_each (body := fun iCell => bodyC c E s.sys ifAll s.u s.x s.y s.si iCell) _ _ _ hy l (List.mem_range.2 hl)
    unfold bodyC at hz
    obtain ⟨σ', h1, hz⟩ := (Res.bind_ok_iff _ _ _).1 hz
    obtain ⟨xi, h2, hz⟩ := (Res.bind_ok_iff _ _ _).1 hz
    rw [if_neg (hc _ h1)] at hz
    obtain ⟨yi, h3, hz⟩ := (Res.bind_ok_iff _ _ _).1 hz
    obtain ⟨c2f, h4, hz⟩ := (Res.bind_ok_iff _ _ _).1 hz
    obtain ⟨ds, h5, hz⟩ := (Res.bind_ok_iff _ _ _).1 hz
    obtain ⟨p, hp⟩ : ∃ p, c.maxOrder = p + 1 := ⟨c.maxOrder - 1, by omega⟩
    rw [hp] at hz hlims
    unfold cellC at hz
    obtain ⟨lm, h6, hz⟩ := (Res.bind_ok_iff _ _ _).1 hz
    split at hz
    · obtain ⟨o, h7, hz⟩ := (Res.bind_ok_iff _ _ _).1 hz
      rw [multiway_3d hn (hlims _ h6)] at hz
      cases hz
    · cases hz
  · intro h
    obtain ⟨p, hp⟩ : ∃ p, c.maxOrder = p + 1 := ⟨c.maxOrder - 1, by omega⟩
    unfold limiter3 at h
    rw [hp] at h hlims
    obtain ⟨a, ha, -⟩ := (Res.bind_ok_iff _ _ _).1 h
    unfold orders3 at ha
    obtain ⟨b, hb, -⟩ := (Res.bind_ok_iff _ _ _).1 ha
    unfold order3 at hb
    obtain ⟨lm, h6, hb⟩ := (Res.bind_ok_iff _ _ _).1 hb
    obtain ⟨d, hd', -⟩ := (Res.bind_ok_iff _ _ _).1 hb
    obtain ⟨e, -, he⟩ := ((forRanks_ok _ _ _ _).1 hd').2 r { s with y := s.x } (by rw [List.getElem?_map, hs]; rfl)
    obtain ⟨y, hy, -⟩ := (Res.bind_ok_iff _ _ _).1 he
    obtain ⟨z, hz⟩ := sweep_each (body := fun iCell => body3 c E s.sys ifAll s.u s.x s.x s.si lm.1 lm.2 iCell) _ _ _ hy l (List.mem_range.2 hl)
    unfold body3 at hz
    obtain ⟨σ', h1, hz⟩ := (Res.bind_ok_iff _ _ _).1 hz
    obtain ⟨yi, h2, hz⟩ := (Res.bind_ok_iff _ _ _).1 hz
    rw [if_neg (hc _ h1)] at hz
    obtain ⟨xi, h3, hz⟩ := (Res.bind_ok_iff _ _ _).1 hz
    obtain ⟨c2f, h4, hz⟩ := (Res.bind_ok_iff _ _ _).1 hz
    obtain ⟨ds, h5, hz⟩ := (Res.bind_ok_iff _ _ _).1 hz
    split at hz
    · obtain ⟨o, h7, hz⟩ := (Res.bind_ok_iff _ _ _).1 hz
      rw [multiway_3d hn (hlims _ h6)] at hz
      cases hz
    · cases hz

end DNDSR.LimProc
