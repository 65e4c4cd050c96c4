import Verif.Model.DiffTensors
import Verif.Proof.Chain
import Verif.Props.Periodic
import Verif.Props.BaseFunction

/-!
# Transformed tables of derivatives hold the derivatives of the transformed functions
-/

namespace DNDSR.Jet

open Matrix

variable {d : Nat}

/-- The tables agree with the documented order of the derivatives. -/
structure TabOk (T : Tab d) (rows : List (List (Fin d))) : Prop where
  siz0 : T.siz 0 = 1
  siz1 : T.siz 1 = 1 + d
  mono : T.siz 1 ≤ T.siz 2 ∧ T.siz 2 ≤ T.siz 3
  row0 : rows.getD 0 [] = []
  row1 : ∀ r, 1 ≤ r → r < T.siz 1 → rows.getD r [] = [T.dim r 0]
  row2 : ∀ r, T.siz 1 ≤ r → r < T.siz 2 → rows.getD r [] = [T.dim r 0, T.dim r 1]
  row3 : ∀ r, T.siz 2 ≤ r → r < T.siz 3 → rows.getD r [] = [T.dim r 0, T.dim r 1, T.dim r 2]
  ix1 : ∀ i, T.ix [i] = 1 + i ∧ rows.getD (T.ix [i]) [] = [i]
  ix2 : ∀ i j, T.siz 1 ≤ T.ix [i, j] ∧ T.ix [i, j] < T.siz 2 ∧ (rows.getD (T.ix [i, j]) []).Perm [i, j]
  ix3 : ∀ i j k, T.siz 2 ≤ T.ix [i, j, k] ∧ T.ix [i, j, k] < T.siz 3 ∧ (rows.getD (T.ix [i, j, k]) []).Perm [i, j, k]

theorem range_cases {P : Nat → Prop} {lo hi : Nat} (h : ∀ r : Fin hi, lo ≤ r.val → P r.val) : ∀ r, lo ≤ r → r < hi → P r :=
  fun r h1 h2 => h ⟨r, h2⟩ h1

theorem tab2_ok : TabOk tab2 rows2 where
  siz0 := rfl
  siz1 := rfl
  mono := by decide
  row0 := rfl
  row1 := range_cases (hi := 3) (by decide)
  row2 := range_cases (lo := 3) (hi := 6) (by decide)
  row3 := range_cases (lo := 6) (hi := 10) (by decide)
  ix1 := by decide
  ix2 := by decide
  ix3 := by decide

theorem tab3_ok : TabOk tab3 rows3 where
  siz0 := rfl
  siz1 := rfl
  mono := by decide
  row0 := rfl
  row1 := range_cases (hi := 4) (by decide)
  row2 := range_cases (lo := 4) (hi := 10) (by decide)
  row3 := range_cases (lo := 10) (hi := 20) (by decide)
  ix1 := by decide
  ix2 := by decide
  ix3 := by decide

variable {T : Tab d} {rows : List (List (Fin d))} {n : Nat} {u : (Fin d → ℝ) → ℝ} {x : Fin d → ℝ} {c : Nat → ℝ}

theorem jet1 (hT : TabOk T rows) (h : IsJet rows n u x c) (hn : T.siz 1 ≤ n) (m : Fin d) : c (T.ix [m]) = pd m u x := by
  have h1 := hT.ix1 m
  rw [h (T.ix [m]) (by have := hT.siz1; omega), h1.2]
  rfl

theorem jet2 (hT : TabOk T rows) (hu : Smooth u) (h : IsJet rows n u x c) (hn : T.siz 2 ≤ n) (i j : Fin d) :
    c (T.ix [i, j]) = pd j (pd i u) x := by
  have h1 := hT.ix2 i j
  rw [h (T.ix [i, j]) (by omega), pdL_perm hu (h1.2.2.trans (List.Perm.swap j i []))]
  rfl

theorem jet3 (hT : TabOk T rows) (hu : Smooth u) (h : IsJet rows n u x c) (hn : T.siz 3 ≤ n) (i j k : Fin d) :
    c (T.ix [i, j, k]) = pd k (pd j (pd i u)) x := by
  have h1 := hT.ix3 i j k
  have hp : [i, j, k].Perm [k, j, i] := (List.reverse_perm [k, j, i])
  rw [h (T.ix [i, j, k]) (by omega), pdL_perm hu (h1.2.2.trans hp)]
  rfl

/-- What a linear change of variables does to the rows. -/
structure LinRows (T : Tab d) (D : Matrix (Fin d) (Fin d) ℝ) (n : Nat) (c c' : Nat → ℝ) : Prop where
  r0 : 1 ≤ n → c' 0 = c 0
  r1 : ∀ r, 1 ≤ r → r < T.siz 1 → r < n → c' r = ∑ m, D (T.dim r 0) m * c (T.ix [m])
  r2 : ∀ r, T.siz 1 ≤ r → r < T.siz 2 → r < n → c' r = ∑ m, ∑ p, D (T.dim r 0) m * D (T.dim r 1) p * c (T.ix [m, p])
  r3 : ∀ r, T.siz 2 ≤ r → r < T.siz 3 → r < n →
    c' r = ∑ m, ∑ p, ∑ q, D (T.dim r 0) m * D (T.dim r 1) p * D (T.dim r 2) q * c (T.ix [m, p, q])

theorem sym2_sum (D S : Matrix (Fin d) (Fin d) ℝ) (i j : Fin d) : (D * S * Dᵀ) i j = ∑ m, ∑ p, D i m * D j p * S m p := by
  simp only [Matrix.mul_apply, Matrix.transpose_apply, Finset.sum_mul]
  rw [Finset.sum_comm]
  exact Finset.sum_congr rfl fun m _ => Finset.sum_congr rfl fun p _ => by ring

theorem sym3_sum (D : Matrix (Fin d) (Fin d) ℝ) (S : Ten3 d) (i j k : Fin d) :
    matTransform2 Dᵀ (matTransform1 Dᵀ (matTransform0 Dᵀ S)) i j k = ∑ m, ∑ p, ∑ q, D i m * D j p * D k q * S m p q := by
  simp only [matTransform0, matTransform1, matTransform2, Matrix.transpose_apply, Finset.sum_mul]
  rw [Finset.sum_congr rfl fun q _ => Finset.sum_comm, Finset.sum_comm]
  refine Finset.sum_congr rfl fun m _ => ?_
  rw [Finset.sum_comm]
  exact Finset.sum_congr rfl fun p _ => Finset.sum_congr rfl fun q _ => by ring

theorem pack22_eq : ∀ i j : Fin 2, 3 + pack22 i j = tab2.ix [i, j] := by decide
theorem pack23_eq : ∀ i j k : Fin 2, 6 + pack23 i j k = tab2.ix [i, j, k] := by decide
theorem pack32_eq : ∀ i j : Fin 3, 4 + pack32 i j = tab3.ix [i, j] := by decide
theorem pack33_eq : ∀ i j k : Fin 3, 10 + pack33 i j k = tab3.ix [i, j, k] := by decide
theorem back22_eq : ∀ r : Fin 3, back22.getD r (0, 0) = (tab2.dim (3 + r) 0, tab2.dim (3 + r) 1) := by decide
theorem back23_eq : ∀ r : Fin 4, back23.getD r (0, 0, 0) = (tab2.dim (6 + r) 0, tab2.dim (6 + r) 1, tab2.dim (6 + r) 2) := by decide
theorem back32_eq : ∀ r : Fin 6, back32.getD r (0, 0) = (tab3.dim (4 + r) 0, tab3.dim (4 + r) 1) := by decide
theorem back33_eq : ∀ r : Fin 10, back33.getD r (0, 0, 0) = (tab3.dim (10 + r) 0, tab3.dim (10 + r) 1, tab3.dim (10 + r) 2) := by decide

theorem vec_row (D : Matrix (Fin d) (Fin d) ℝ) (hT : TabOk T rows) (hd : ∀ r (h : r < d), T.dim (1 + r) 0 = ⟨r, h⟩) {r : Nat} (h1 : 1 ≤ r)
    (h2 : r < T.siz 1) (v : Nat → ℝ) : transVec D (fun k => v (1 + k)) (r - 1) = ∑ m, D (T.dim r 0) m * v (T.ix [m]) := by
  have hr : r - 1 < d := by have := hT.siz1; omega
  rw [transVec, dif_pos hr]
  have e := hd (r - 1) hr
  rw [show 1 + (r - 1) = r by omega] at e
  rw [e]
  exact Finset.sum_congr rfl fun m _ => by rw [(hT.ix1 m).1]

theorem linMap2_rows (D : Per.M3) (c : Nat → ℝ) {n : Nat} (hn : n = 1 ∨ n = 3 ∨ n = 6 ∨ n = 10) :
    ∃ c', linMap2 D n c = .ok c' ∧ LinRows tab2 (Per.block D) n c c' := by
  have hd : ∀ r (h : r < 2), tab2.dim (1 + r) 0 = ⟨r, h⟩ := fun r h => (by decide : ∀ r : Fin 2, tab2.dim (1 + r) 0 = r) ⟨r, h⟩
  have R0 : ∀ lo hi f (v : Nat → ℝ) r, r < lo → onRows lo hi f v r = v r := fun lo hi f v r h => if_neg (by omega)
  have R1 : ∀ lo hi f (v : Nat → ℝ) r, hi < r → onRows lo hi f v r = v r := fun lo hi f v r h => if_neg (by omega)
  have V : ∀ (v : Nat → ℝ) r, 1 ≤ r → r < 3 → onRows 1 2 (transVec (Per.block D)) v r = ∑ m, Per.block D (tab2.dim r 0) m * v (tab2.ix [m]) :=
    fun v r h1 h2 => by
      rw [onRows, if_pos (by omega)]
      exact vec_row (Per.block D) tab2_ok hd h1 h2 v
  have S : ∀ (v : Nat → ℝ) r, 3 ≤ r → r < 6 → onRows 3 5 (transSym22 (Per.block D)) v r =
      ∑ m, ∑ p, Per.block D (tab2.dim r 0) m * Per.block D (tab2.dim r 1) p * v (tab2.ix [m, p]) := fun v r h1 h2 => by
    rw [onRows, if_pos (by omega)]
    have e := back22_eq ⟨r - 3, by omega⟩
    simp only [show 3 + (r - 3) = r by omega] at e
    rw [transSym22]
    refine (sym2_sum (Per.block D) (fun i j => v (3 + pack22 i j)) _ _).trans ?_
    rw [e]
    simp only [pack22_eq]
  have W : ∀ (v : Nat → ℝ) r, 6 ≤ r → r < 10 → onRows 6 9 (transSym23 (Per.block D)) v r =
      ∑ m, ∑ p, ∑ q, Per.block D (tab2.dim r 0) m * Per.block D (tab2.dim r 1) p * Per.block D (tab2.dim r 2) q * v (tab2.ix [m, p, q]) :=
    fun v r h1 h2 => by
      rw [onRows, if_pos (by omega)]
      have e := back23_eq ⟨r - 6, by omega⟩
      simp only [show 6 + (r - 6) = r by omega] at e
      rw [transSym23, sym3_sum, e]
      simp only [pack23_eq]
  have b1 : ∀ m, tab2.ix [m] < 3 := by decide
  have b2 : ∀ m p, tab2.ix [m, p] < 6 := by decide
  have s1 : tab2.siz 1 = 3 := rfl
  have s2 : tab2.siz 2 = 6 := rfl
  have s3 : tab2.siz 3 = 10 := rfl
  rcases hn with rfl | rfl | rfl | rfl
  · exact ⟨_, rfl, fun _ => rfl, fun r h1 h2 h3 => by omega, fun r h1 h2 h3 => by omega, fun r h1 h2 h3 => by omega⟩
  · exact ⟨_, rfl, fun _ => R0 _ _ _ _ _ (by omega), fun r h1 h2 h3 => V _ r h1 h2, fun r h1 h2 h3 => by omega, fun r h1 h2 h3 => by omega⟩
  · refine ⟨_, rfl, fun _ => ?_, fun r h1 h2 h3 => ?_, fun r h1 h2 h3 => ?_, fun r h1 h2 h3 => by omega⟩
    · rw [R0 _ _ _ _ _ (by omega), R0 _ _ _ _ _ (by omega)]
    · rw [V _ r h1 h2]
      exact Finset.sum_congr rfl fun m _ => by rw [R0 _ _ _ _ _ (b1 m)]
    · rw [R1 _ _ _ _ _ (by omega), S _ r h1 h2]
  · refine ⟨_, rfl, fun _ => ?_, fun r h1 h2 h3 => ?_, fun r h1 h2 h3 => ?_, fun r h1 h2 h3 => ?_⟩
    · rw [R0 _ _ _ _ _ (by omega), R0 _ _ _ _ _ (by omega), R0 _ _ _ _ _ (by omega)]
    · rw [V _ r h1 h2]
      exact Finset.sum_congr rfl fun m _ => by rw [R0 _ _ _ _ _ (b1 m), R0 _ _ _ _ _ (by have := b1 m; omega)]
    · rw [R1 _ _ _ _ _ (by omega), S _ r h1 h2]
      exact Finset.sum_congr rfl fun m _ => Finset.sum_congr rfl fun p _ => by rw [R0 _ _ _ _ _ (b2 m p)]
    · rw [R1 _ _ _ _ _ (by omega), R1 _ _ _ _ _ (by omega), W _ r h1 h2]

theorem linMap3_rows (D : Per.M3) (c : Nat → ℝ) {n : Nat} (hn : n = 1 ∨ n = 4 ∨ n = 10 ∨ n = 20) :
    ∃ c', linMap3 D n c = .ok c' ∧ LinRows tab3 D n c c' := by
  have hd : ∀ r (h : r < 3), tab3.dim (1 + r) 0 = ⟨r, h⟩ := fun r h => (by decide : ∀ r : Fin 3, tab3.dim (1 + r) 0 = r) ⟨r, h⟩
  have R0 : ∀ lo hi f (v : Nat → ℝ) r, r < lo → onRows lo hi f v r = v r := fun lo hi f v r h => if_neg (by omega)
  have R1 : ∀ lo hi f (v : Nat → ℝ) r, hi < r → onRows lo hi f v r = v r := fun lo hi f v r h => if_neg (by omega)
  have V : ∀ (v : Nat → ℝ) r, 1 ≤ r → r < 4 → onRows 1 3 (transVec D) v r = ∑ m, D (tab3.dim r 0) m * v (tab3.ix [m]) :=
    fun v r h1 h2 => by
      rw [onRows, if_pos (by omega)]
      exact vec_row D tab3_ok hd h1 h2 v
  have S : ∀ (v : Nat → ℝ) r, 4 ≤ r → r < 10 → onRows 4 9 (transSym32 D) v r =
      ∑ m, ∑ p, D (tab3.dim r 0) m * D (tab3.dim r 1) p * v (tab3.ix [m, p]) := fun v r h1 h2 => by
    rw [onRows, if_pos (by omega)]
    have e := back32_eq ⟨r - 4, by omega⟩
    simp only [show 4 + (r - 4) = r by omega] at e
    rw [transSym32]
    refine (sym2_sum D (fun i j => v (4 + pack32 i j)) _ _).trans ?_
    rw [e]
    simp only [pack32_eq]
  have W : ∀ (v : Nat → ℝ) r, 10 ≤ r → r < 20 → onRows 10 19 (transSym33 D) v r =
      ∑ m, ∑ p, ∑ q, D (tab3.dim r 0) m * D (tab3.dim r 1) p * D (tab3.dim r 2) q * v (tab3.ix [m, p, q]) :=
    fun v r h1 h2 => by
      rw [onRows, if_pos (by omega)]
      have e := back33_eq ⟨r - 10, by omega⟩
      simp only [show 10 + (r - 10) = r by omega] at e
      rw [transSym33, sym3_sum, e]
      simp only [pack33_eq]
  have b1 : ∀ m, tab3.ix [m] < 4 := by decide
  have b2 : ∀ m p, tab3.ix [m, p] < 10 := by decide
  have s1 : tab3.siz 1 = 4 := rfl
  have s2 : tab3.siz 2 = 10 := rfl
  have s3 : tab3.siz 3 = 20 := rfl
  rcases hn with rfl | rfl | rfl | rfl
  · exact ⟨_, rfl, fun _ => rfl, fun r h1 h2 h3 => by omega, fun r h1 h2 h3 => by omega, fun r h1 h2 h3 => by omega⟩
  · exact ⟨_, rfl, fun _ => R0 _ _ _ _ _ (by omega), fun r h1 h2 h3 => V _ r h1 h2, fun r h1 h2 h3 => by omega, fun r h1 h2 h3 => by omega⟩
  · refine ⟨_, rfl, fun _ => ?_, fun r h1 h2 h3 => ?_, fun r h1 h2 h3 => ?_, fun r h1 h2 h3 => by omega⟩
    · rw [R0 _ _ _ _ _ (by omega), R0 _ _ _ _ _ (by omega)]
    · rw [V _ r h1 h2]
      exact Finset.sum_congr rfl fun m _ => by rw [R0 _ _ _ _ _ (b1 m)]
    · rw [R1 _ _ _ _ _ (by omega), S _ r h1 h2]
  · refine ⟨_, rfl, fun _ => ?_, fun r h1 h2 h3 => ?_, fun r h1 h2 h3 => ?_, fun r h1 h2 h3 => ?_⟩
    · rw [R0 _ _ _ _ _ (by omega), R0 _ _ _ _ _ (by omega), R0 _ _ _ _ _ (by omega)]
    · rw [V _ r h1 h2]
      exact Finset.sum_congr rfl fun m _ => by rw [R0 _ _ _ _ _ (b1 m), R0 _ _ _ _ _ (by have := b1 m; omega)]
    · rw [R1 _ _ _ _ _ (by omega), S _ r h1 h2]
      exact Finset.sum_congr rfl fun m _ => Finset.sum_congr rfl fun p _ => by rw [R0 _ _ _ _ _ (b2 m p)]
    · rw [R1 _ _ _ _ _ (by omega), R1 _ _ _ _ _ (by omega), W _ r h1 h2]

/-- The rows of one order are either all asked for or none. -/
def FullOrders (T : Tab d) (n : Nat) : Prop := n = T.siz 0 ∨ n = T.siz 1 ∨ n = T.siz 2 ∨ n = T.siz 3

theorem linRows_jet (hT : TabOk T rows) (hn : FullOrders T n) (hu : Smooth u) (D : Matrix (Fin d) (Fin d) ℝ) (b : Fin d → ℝ) {c' : Nat → ℝ}
    (h : IsJet rows n u (affine D b x) c) (hc : LinRows T D n c c') : IsJet rows n (fun y => u (affine D b y)) x c' := by
  have hs := hT.siz0
  have hs1 := hT.siz1
  have hm := hT.mono
  intro r hr
  have hcases : r = 0 ∨ (1 ≤ r ∧ r < T.siz 1 ∧ T.siz 1 ≤ n) ∨ (T.siz 1 ≤ r ∧ r < T.siz 2 ∧ T.siz 2 ≤ n) ∨
      (T.siz 2 ≤ r ∧ r < T.siz 3 ∧ T.siz 3 ≤ n) := by
    rcases hn with h | h | h | h <;> omega
  rcases hcases with rfl | ⟨h1, h2, h3⟩ | ⟨h1, h2, h3⟩ | ⟨h1, h2, h3⟩
  · rw [hc.r0 (by omega), h 0 (by omega), hT.row0]
    rfl
  · rw [hc.r1 r h1 h2 hr, hT.row1 r h1 h2]
    show _ = pd (T.dim r 0) (fun y => u (affine D b y)) x
    rw [affine1 hu]
    exact Finset.sum_congr rfl fun m _ => by rw [jet1 hT h h3]
  · rw [hc.r2 r h1 h2 hr, hT.row2 r h1 h2]
    show _ = pd (T.dim r 0) (pd (T.dim r 1) (fun y => u (affine D b y))) x
    rw [pd_comm (hu.comp (affine_smooth D b)), affine2 hu]
    exact Finset.sum_congr rfl fun m _ => Finset.sum_congr rfl fun p _ => by rw [jet2 hT hu h h3]
  · rw [hc.r3 r h1 h2 hr, hT.row3 r h1 h2]
    have hp : [T.dim r 0, T.dim r 1, T.dim r 2].Perm [T.dim r 2, T.dim r 1, T.dim r 0] := List.reverse_perm [T.dim r 2, T.dim r 1, T.dim r 0]
    rw [pdL_perm (hu.comp (affine_smooth D b)) hp]
    show _ = pd (T.dim r 2) (pd (T.dim r 1) (pd (T.dim r 0) (fun y => u (affine D b y)))) x
    rw [affine3 hu]
    exact Finset.sum_congr rfl fun m _ => Finset.sum_congr rfl fun p _ => Finset.sum_congr rfl fun q _ => by rw [jet3 hT hu h h3]

/-- **C63** (linear map, two dimensions) If a column holds the derivatives of `u` at the image of `x` under an affine map, the conversion by
the plane block of the map's matrix yields the derivatives at `x` of `u` after the map. Other numbers of rows abort. -/
theorem linMap2_jet (D : Per.M3) (b x : Fin 2 → ℝ) {u : (Fin 2 → ℝ) → ℝ} (hu : Smooth u) (c : Nat → ℝ) (n : Nat) :
    (n = 1 ∨ n = 3 ∨ n = 6 ∨ n = 10 → IsJet rows2 n u (affine (Per.block D) b x) c →
      ∃ c', linMap2 D n c = .ok c' ∧ IsJet rows2 n (fun y => u (affine (Per.block D) b y)) x c') ∧
    (¬(n = 1 ∨ n = 3 ∨ n = 6 ∨ n = 10) → linMap2 D n c = .abort) := by
  constructor
  · intro hn h
    obtain ⟨c', h1, h2⟩ := linMap2_rows D c hn
    exact ⟨c', h1, linRows_jet tab2_ok hn hu _ b h h2⟩
  · intro hn
    unfold linMap2
    split
    · omega
    · omega
    · omega
    · omega
    · rfl

/-- **C63** (linear map, three dimensions) The same in three dimensions. -/
theorem linMap3_jet (D : Per.M3) (b x : Fin 3 → ℝ) {u : (Fin 3 → ℝ) → ℝ} (hu : Smooth u) (c : Nat → ℝ) (n : Nat) :
    (n = 1 ∨ n = 4 ∨ n = 10 ∨ n = 20 → IsJet rows3 n u (affine D b x) c →
      ∃ c', linMap3 D n c = .ok c' ∧ IsJet rows3 n (fun y => u (affine D b y)) x c') ∧
    (¬(n = 1 ∨ n = 4 ∨ n = 10 ∨ n = 20) → linMap3 D n c = .abort) := by
  constructor
  · intro hn h
    obtain ⟨c', h1, h2⟩ := linMap3_rows D c hn
    exact ⟨c', h1, linRows_jet tab3_ok hn hu _ b h h2⟩
  · intro hn
    unfold linMap3
    split
    · omega
    · omega
    · omega
    · omega
    · rfl

theorem at_zero2 : ∀ r k : Fin 10, (∏ a : Fin 2, ((rows2.getD k []).count a).descFactorial ((rows2.getD r []).count a) *
    (0 ^ ((rows2.getD k []).count a - (rows2.getD r []).count a)) = 0 ↔ r ≠ k) := by decide +kernel

theorem at_zero3 : ∀ r k : Fin 20, (∏ a : Fin 3, ((rows3.getD k []).count a).descFactorial ((rows3.getD r []).count a) *
    (0 ^ ((rows3.getD k []).count a - (rows3.getD r []).count a)) = 0 ↔ r ≠ k) := by decide +kernel

/-- Every column is the table of derivatives of some function. -/
theorem realize {N : Nat} (rows : List (List (Fin d)))
    (hz : ∀ r k : Fin N, (∏ a, ((rows.getD k []).count a).descFactorial ((rows.getD r []).count a) *
      (0 ^ ((rows.getD k []).count a - (rows.getD r []).count a)) = 0 ↔ r ≠ k)) (c : Nat → ℝ) :
    ∃ u : (Fin d → ℝ) → ℝ, Smooth u ∧ IsJet rows N u (fun _ => 0) c := by
  let w : Fin N → Fin N → Nat := fun r k => ∏ a, ((rows.getD k []).count a).descFactorial ((rows.getD r []).count a) *
      (0 ^ ((rows.getD k []).count a - (rows.getD r []).count a))
  have hw : ∀ r k : Fin N, pdL (rows.getD r []) (monomial (fun _ => 1) (rows.getD k [])) (fun _ => 0) = w r k := fun r k => by
    rw [pdL_monomial, Nat.cast_prod]
    refine Finset.prod_congr rfl fun a _ => ?_
    simp
  refine ⟨fun x => ∑ k : Fin N, (c k / w k k) * monomial (fun _ => 1) (rows.getD k []) x,
    Smooth.sum fun k => (smooth_const _).mul (smooth_monomial _ _), fun r hr => ?_⟩
  rw [pdL_sum _ fun k => smooth_monomial _ _]
  simp only
  rw [Finset.sum_eq_single (⟨r, hr⟩ : Fin N)]
  · rw [hw ⟨r, hr⟩ ⟨r, hr⟩]
    have : (w ⟨r, hr⟩ ⟨r, hr⟩ : ℝ) ≠ 0 := Nat.cast_ne_zero.mpr fun h => (hz ⟨r, hr⟩ ⟨r, hr⟩).mp h rfl
    rw [div_mul_cancel₀ _ this]
  · intro k _ hk
    rw [hw ⟨r, hr⟩ k, show w ⟨r, hr⟩ k = 0 from (hz ⟨r, hr⟩ k).mpr (Ne.symm hk)]
    simp
  · intro h; exact absurd (Finset.mem_univ _) h

theorem IsJet.mono {rows : List (List (Fin d))} {n m : Nat} (h : IsJet rows m u x c) (hn : n ≤ m) : IsJet rows n u x c :=
  fun k hk => h k (by omega)

theorem affine_back {D E : Matrix (Fin d) (Fin d) ℝ} (h : ∀ m a, ∑ i, D i m * E a i = if m = a then 1 else 0) (y : Fin d → ℝ) :
    affine D 0 (affine E 0 y) = y := by
  funext m
  have h0 : ∀ i, affine E 0 y i = ∑ a, E a i * y a := fun i => add_zero _
  have h1 : affine D 0 (affine E 0 y) m = ∑ i, D i m * affine E 0 y i := add_zero _
  rw [h1]
  simp only [h0, Finset.mul_sum]
  rw [Finset.sum_comm]
  have e : ∀ a, ∑ i, D i m * (E a i * y a) = (if m = a then 1 else 0) * y a := fun a => by
    rw [← h m a, Finset.sum_mul]
    exact Finset.sum_congr rfl fun i _ => by ring
  rw [Finset.sum_congr rfl fun a _ => e a]
  simp

/-- **C63** (round trip, three dimensions) With an orthogonal matrix, converting and converting back with the transpose changes nothing. -/
theorem transDi3_back (P : Per.Periodicity) {id : Int} {i : Fin 4} (hid : Per.axisOf id = some i) (hR : Per.Rigid (P.rotation i))
    {n : Nat} (hn : n = 1 ∨ n = 4 ∨ n = 10 ∨ n = 20) (c : Nat → ℝ) : ∃ c' c'',
    transDi3 P n c id = .ok c' ∧ transDiBack3 P n c' id = .ok c'' ∧ ∀ r, r < n → c'' r = c r := by
  obtain ⟨u, hu, hj⟩ := realize rows3 at_zero3 c
  have hj := hj.mono (n := n) (by omega)
  have z : ∀ D : Matrix (Fin 3) (Fin 3) ℝ, affine D 0 (fun _ => 0) = fun _ => 0 := fun D => by funext m; simp [affine]
  obtain ⟨c', h1, h2⟩ := (linMap3_jet (P.rotation i) 0 (fun _ => 0) hu c n).1 hn (by rw [z]; exact hj)
  obtain ⟨c'', h3, h4⟩ := (linMap3_jet (P.rotation i)ᵀ 0 (fun _ => 0) (hu.comp (affine_smooth (P.rotation i) 0)) c' n).1 hn (by rw [z]; exact h2)
  refine ⟨c', c'', by rw [transDi3, Per.slot_ok hid]; exact h1, by rw [transDiBack3, Per.slot_ok hid]; exact h3, fun r hr => ?_⟩
  rw [h4 r hr, hj r hr]
  congr 1
  funext y
  rw [affine_back]
  intro m a
  have := congrFun (congrFun hR.1 m) a
  rw [Matrix.mul_apply] at this
  simpa [Matrix.transpose_apply, Matrix.one_apply] using this

/-- **C63** (round trip, two dimensions) With an orthogonal matrix that keeps the plane, converting and converting back with the transpose
changes nothing. -/
theorem transDi2_back (P : Per.Periodicity) {id : Int} {i : Fin 4} (hid : Per.axisOf id = some i) (hR : Per.Rigid (P.rotation i))
    (hz : ∀ a : Fin 2, P.rotation i 2 a.castSucc = 0) {n : Nat} (hn : n = 1 ∨ n = 3 ∨ n = 6 ∨ n = 10) (c : Nat → ℝ) : ∃ c' c'',
    transDi2 P n c id = .ok c' ∧ transDiBack2 P n c' id = .ok c'' ∧ ∀ r, r < n → c'' r = c r := by
  obtain ⟨u, hu, hj⟩ := realize rows2 at_zero2 c
  have hj := hj.mono (n := n) (by omega)
  have z : ∀ D : Matrix (Fin 2) (Fin 2) ℝ, affine D 0 (fun _ => 0) = fun _ => 0 := fun D => by funext m; simp [affine]
  obtain ⟨c', h1, h2⟩ := (linMap2_jet (P.rotation i) 0 (fun _ => 0) hu c n).1 hn (by rw [z]; exact hj)
  obtain ⟨c'', h3, h4⟩ := (linMap2_jet (P.rotation i)ᵀ 0 (fun _ => 0) (hu.comp (affine_smooth (Per.block (P.rotation i)) 0)) c' n).1 hn (by rw [z]; exact h2)
  refine ⟨c', c'', by rw [transDi2, Per.slot_ok hid]; exact h1, by rw [transDiBack2, Per.slot_ok hid]; exact h3, fun r hr => ?_⟩
  rw [h4 r hr, hj r hr]
  congr 1
  funext y
  rw [affine_back]
  intro m a
  have := congrFun (congrFun (Per.block_rigid hR hz).1 m) a
  rw [Matrix.mul_apply] at this
  simpa [Matrix.transpose_apply, Matrix.one_apply, Per.block] using this

/-- The function seen through a periodic boundary: its value at a point is the value at the point transformed back. -/
noncomputable def seen (P : Per.Periodicity) (id : Int) (f : (Fin 3 → ℝ) → ℝ) (y : Fin 3 → ℝ) : ℝ :=
  match Per.transCoordBack P y id with
  | .ok q => f q
  | _ => 0

/-- **C63** (periodic boundaries) The derivatives of a function at a point, transformed through a periodic boundary with an orthogonal
rotation, are the derivatives of the transformed function at the transformed point. -/
theorem transDi3_jet (P : Per.Periodicity) {id : Int} {i : Fin 4} (hid : Per.axisOf id = some i) (hR : Per.Rigid (P.rotation i))
    {f : (Fin 3 → ℝ) → ℝ} (hf : Smooth f) {n : Nat} (hn : n = 1 ∨ n = 4 ∨ n = 10 ∨ n = 20) {p p' : Fin 3 → ℝ} {c : Nat → ℝ}
    (hp : Per.transCoord P p id = .ok p') (h : IsJet rows3 n f p c) :
    ∃ c', transDi3 P n c id = .ok c' ∧ IsJet rows3 n (seen P id f) p' c' := by
  let b : Fin 3 → ℝ := fun m => P.rotationCenter i m - ((P.rotation i)ᵀ *ᵥ (P.translation i + P.rotationCenter i)) m
  have hb : ∀ y, Per.transCoordBack P y id = .ok (affine (P.rotation i) b y) := fun y => by
    rw [Per.transCoordBack, Per.slot_ok hid]
    show Res.ok _ = Res.ok _
    congr 1
    have e : y - P.translation i - P.rotationCenter i = y - (P.translation i + P.rotationCenter i) := by abel
    funext m
    rw [e, Matrix.mulVec_sub]
    simp only [Pi.add_apply, Pi.sub_apply, affine, b, Matrix.mulVec, dotProduct, Matrix.transpose_apply]
    ring
  have hpt : affine (P.rotation i) b p' = p := by
    have h1 := (Per.transCoord_back (P := P) hid hR p).1
    rw [hp] at h1
    exact Res.ok.inj ((hb p').symm.trans h1)
  obtain ⟨c', h1, h2⟩ := (linMap3_jet (P.rotation i) b p' hf c n).1 hn (by rw [hpt]; exact h)
  refine ⟨c', by rw [transDi3, Per.slot_ok hid]; exact h1, ?_⟩
  have e : seen P id f = fun y => f (affine (P.rotation i) b y) := by
    funext y
    rw [seen, hb y]
  rw [e]
  exact h2

/-- A quarter turn takes the derivatives `(1, 2)` of a function of the plane to `(-2, 1)`; the turn is rigid and keeps the plane. -/
example : Per.axisOf (-4) = some 1 ∧ Per.Rigid (Per.quarter.rotation 1) ∧ (∀ a : Fin 2, Per.quarter.rotation 1 2 a.castSucc = 0) ∧
    ∃ c', transDi2 Per.quarter 3 (fun r => r) (-4) = .ok c' ∧ c' 1 = -2 ∧ c' 2 = 1 := by
  have hr : Per.quarter.rotation 1 = !![0, -1, 0; 1, 0, 0; 0, 0, 1] := rfl
  refine ⟨rfl, ⟨?_, ?_⟩, ?_, ?_⟩
  · rw [hr]; ext a b; fin_cases a <;> fin_cases b <;> simp [Matrix.mul_apply, Fin.sum_univ_three]
  · rw [hr]; ext a b; fin_cases a <;> fin_cases b <;> simp [Matrix.mul_apply, Fin.sum_univ_three]
  · intro a; rw [hr]; fin_cases a <;> simp
  · unfold transDi2
    rw [Per.slot_ok (i := 1) rfl, Res.ok_bind, hr]
    refine ⟨_, rfl, ?_, ?_⟩ <;> norm_num [onRows, transVec, Per.block, Fin.sum_univ_two]

end DNDSR.Jet
