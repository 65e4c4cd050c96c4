import Verif.Proof.Positivity
import Verif.Proof.IndexMapping

/-!
# C83: the limiter of the reconstruction keeps density and pressure positive
-/

namespace DNDSR.Pos

open DNDSR.Gas

variable {d N : Nat}

theorem safety_pos : 0 < safety ∧ safety < 1 := by unfold safety; norm_num

theorem val_eq (u : TU d) (x : Fin N → TU d) (b : Fin N → ℝ) : val u x b = valueAt u x b := add_comm _ _

theorem val_fst (u : TU d) (x : Fin N → TU d) (b : Fin N → ℝ) : (val u x b).1 = valueAt u.1 (fun j => (x j).1) b := by
  rw [val_eq, valueAt, valueAt, Prod.fst_add, Prod.fst_sum]
  rfl

/-- a factor after the power and the safety -/
theorem power_le {t : ℝ} (h0 : 0 ≤ t) (h1 : t ≤ 1) (n : Nat) : 0 ≤ t * (t ^ n * safety) ∧ t * (t ^ n * safety) ≤ t := by
  obtain ⟨s0, s1⟩ := safety_pos
  have p0 := pow_nonneg h0 n
  have p1 := pow_le_one₀ h0 h1 (n := n)
  have : t ^ n * safety ≤ 1 := by nlinarith
  exact ⟨mul_nonneg h0 (mul_nonneg p0 s0.le), by nlinarith⟩

/-- the last factor of a cell -/
theorem beta_bounds {t : ℝ} (h0 : 0 ≤ t) (h1 : t ≤ 1) (n : Nat) :
    0 ≤ (betaOf n t).2 ∧ (betaOf n t).2 ≤ t ∧ (t < 1 ↔ (betaOf n t).2 < 1) ∧
      ((betaOf n t).1 = (betaOf n t).2 ∨ (betaOf n t).2 = 0 ∧ 0 ≤ (betaOf n t).1 ∧ (betaOf n t).1 < 1 / 1000) := by
  obtain ⟨a, b⟩ := power_le h0 h1 n
  unfold betaOf
  by_cases ht : t < 1
  · rw [if_pos ht]
    have key : ∀ q : ℝ, 0 ≤ q → q ≤ t → 0 ≤ (if q < 1 / 1000 then (0 : ℝ) else q) ∧ (if q < 1 / 1000 then (0 : ℝ) else q) ≤ q ∧
        (q = (if q < 1 / 1000 then (0 : ℝ) else q) ∨ (if q < 1 / 1000 then (0 : ℝ) else q) = 0 ∧ 0 ≤ q ∧ q < 1 / 1000) := by
      intro q q0 _
      split
      · rename_i hq
        exact ⟨le_rfl, q0, Or.inr ⟨rfl, q0, hq⟩⟩
      · exact ⟨q0, le_rfl, Or.inl rfl⟩
    obtain ⟨k0, k1, k2⟩ := key _ a b
    exact ⟨k0, k1.trans b, ⟨fun _ => lt_of_le_of_lt (k1.trans b) ht, fun _ => ht⟩, k2⟩
  · rw [if_neg ht]
    exact ⟨h0, le_rfl, Iff.rfl, Or.inl (le_antisymm (not_lt.mp ht) h1)⟩

/-- what is added at a point of the polynomial of a cell -/
theorem valueAt_between {V : Type} [AddCommGroup V] [Module ℝ V] (u : V) (x base : Fin N → V) (t : ℝ) (b : Fin N → ℝ) :
    valueAt u (fun j => base j + t • (x j - base j)) b = valueAt u base b + t • ∑ j, b j • (x j - base j) := by
  simp only [valueAt, smul_add, Finset.sum_add_distrib, Finset.smul_sum]
  rw [← add_assoc]
  congr 1
  refine Finset.sum_congr rfl fun j _ => ?_
  rw [smul_comm]

/-- from a base that is physical at all points, with room wherever the pressure has to be limited -/
theorem compressTo_spec (c : Cfg) {rhoEps pEps pCent : ℝ} (hg1 : 1 < c.gamma) (hg3 : c.gamma ≤ 3) (hr : 0 < rhoEps) (hp : 0 ≤ pEps) (u : TU d)
    (pts : List (Fin N → ℝ)) (x base : Fin N → TU d)
    (hbase : ∀ b ∈ pts, Physical rhoEps pEps (valueAt u base b).1)
    (hroom : (∀ b ∈ pts, Room pEps (valueAt u base b).1) ∨
      (2 * pEps < pCent → ∀ b ∈ pts, 2 * pEps / (c.gamma - 1) ≤ internal (valueAt u base b).1 ∧ ∑ j, b j • (x j - base j) = 0)) :
    ∃ r, compressTo c rhoEps pEps pCent u pts x base = .ok r ∧ 0 ≤ r.beta ∧ r.beta ≤ 1 ∧ (r.limited = true ↔ r.beta < 1) ∧
      (r.forMin = r.beta ∨ r.beta = 0 ∧ 0 ≤ r.forMin ∧ r.forMin < 1 / 1000) ∧
      (∀ j, (r.x j).1 = (base j).1 + r.beta • ((x j).1 - (base j).1)) ∧ (∀ b ∈ pts, Physical rhoEps pEps (valueAt u r.x b).1) ∧
      ∀ j, r.x j = base j + r.beta • (scaleTwoEq c u pts x base (fun b => ∑ j, b j • (x j - base j)) j - base j) := by
  unfold compressTo
  extract_lets inc theta1
  have hinc : inc = fun b : Fin N → ℝ => ∑ j, b j • (x j - base j) := rfl
  have hth1 : theta1 = roomIf rhoEps 1 (pts.map fun b => ((val u base b).1.1, (inc b).1.1)) := rfl
  obtain ⟨a0, a1⟩ := roomIf_spec (eps := rhoEps) (theta := 1) (pts.map fun b => ((val u base b).1.1, (inc b).1.1)) zero_le_one le_rfl (by
    intro p hp
    obtain ⟨b, hb, rfl⟩ := List.mem_map.mp hp
    rw [val_eq]
    exact (hbase b hb).1)
  have a2 : theta1 ≤ 1 := roomIf_le _
  rw [← hth1] at a0 a1
  have dens : ∀ b ∈ pts, ∀ t, 0 ≤ t → t ≤ theta1 → rhoEps ≤ (valueAt u base b).1.1 + t * (inc b).1.1 := by
    intro b hb t t0 t1
    have := a1 _ (List.mem_map_of_mem hb) t t0 t1
    rwa [val_eq] at this
  have hX : ∀ j, (scaleTwoEq c u pts x base inc j).1 = (x j).1 := by
    intro j
    simp only [scaleTwoEq]
    split <;> rfl
  rw [← hinc]
  generalize scaleTwoEq c u pts x base inc = X at hX ⊢
  have hth : ∃ tp, thetaP c.gamma pEps pCent (pts.map fun b => ((val u base b).1, theta1 • (inc b).1)) = .ok tp ∧
      0 ≤ tp ∧ tp ≤ 1 ∧ ∀ b ∈ pts, ∀ s, 0 ≤ s → s ≤ tp → pEps ≤ internal ((valueAt u base b).1 + s • (theta1 • (inc b).1)) := by
    unfold thetaP
    by_cases hc : pCent ≤ 2 * pEps
    · rw [if_pos hc]
      refine ⟨0, rfl, le_rfl, zero_le_one, fun b hb s s0 s1 => ?_⟩
      rw [le_antisymm s1 s0, zero_smul, add_zero]
      exact (hbase b hb).2
    · rw [if_neg hc]
      obtain ⟨t, ht, t0, t1, hall⟩ := thetaLoop_spec hg1 hg3 hp (pts.map fun b => ((val u base b).1, theta1 • (inc b).1)) 1 zero_le_one le_rfl (by
        intro p hp
        obtain ⟨b, hb, rfl⟩ := List.mem_map.mp hp
        simp only [val_eq]
        refine ⟨lt_of_lt_of_le hr (hbase b hb).1, lt_of_lt_of_le hr (dens b hb theta1 a0 le_rfl), (hbase b hb).2, ?_⟩
        rcases hroom with h | h
        · exact Or.inl (h b hb)
        · obtain ⟨h1, h2⟩ := h (not_le.mp hc) b hb
          refine Or.inr ?_
          have : inc b = 0 := h2
          rw [this, Prod.fst_zero, smul_zero, add_zero]
          exact h1)
      refine ⟨t, ht, t0, t1, fun b hb s s0 s1 => ?_⟩
      have := hall _ (List.mem_map_of_mem hb) s s0 s1
      rwa [val_eq] at this
  obtain ⟨tp, htp, p0, p1, hint⟩ := hth
  rw [htp, Res.ok_bind]
  have t0 : 0 ≤ theta1 * tp := mul_nonneg a0 p0
  have t1 : theta1 * tp ≤ 1 := by nlinarith
  obtain ⟨b0, b1, b2, b3⟩ := beta_bounds t0 t1 c.betaPower
  simp only [useBeta]
  generalize (betaOf c.betaPower (theta1 * tp)).2 = beta at b0 b1 b2 b3
  generalize (betaOf c.betaPower (theta1 * tp)).1 = forMin at b3
  rw [if_neg (not_lt.mpr b0)]
  have hb1 : beta ≤ 1 := b1.trans t1
  generalize hY : (if beta < 1 then fun j => beta • (X j - base j) + base j else X) = Y
  have hYX : ∀ j, Y j = base j + beta • (X j - base j) := by
    intro j
    rw [← hY]
    by_cases h : beta < 1
    · rw [if_pos h, add_comm]
    · rw [if_neg h, le_antisymm hb1 (not_lt.mp h), one_smul]
      abel
  have hYx : ∀ j, (Y j).1 = (base j).1 + beta • ((x j).1 - (base j).1) := by
    intro j
    rw [hYX j, ← hX]
    rfl
  have hval : ∀ b, (valueAt u Y b).1 = (valueAt u base b).1 + beta • (inc b).1 := by
    intro b
    have e1 : (valueAt u Y b).1 = valueAt u.1 (fun j => (Y j).1) b := by rw [← val_eq, val_fst]
    have e2 : (valueAt u base b).1 = valueAt u.1 (fun j => (base j).1) b := by rw [← val_eq, val_fst]
    rw [e1, e2, show (fun j => (Y j).1) = fun j => (base j).1 + beta • ((x j).1 - (base j).1) from funext hYx,
      valueAt_between u.1 (fun j => (x j).1) (fun j => (base j).1)]
    congr 2
    rw [hinc]
    simp only [Prod.fst_sum, Prod.smul_fst, Prod.fst_sub]
  have hphys : ∀ b ∈ pts, Physical rhoEps pEps (valueAt u Y b).1 := by
    intro b hb
    rw [hval]
    refine ⟨dens b hb beta b0 (b1.trans (by nlinarith)), ?_⟩
    rcases a0.lt_or_eq with h | h
    · have : beta • (inc b).1 = (beta / theta1) • (theta1 • (inc b).1) := by rw [smul_smul, div_mul_cancel₀ _ h.ne']
      rw [this]
      refine hint b hb _ (div_nonneg b0 h.le) ?_
      rw [div_le_iff₀ h, mul_comm]
      exact b1
    · have : beta = 0 := le_antisymm (by rw [← h, zero_mul] at b1; exact b1) b0
      rw [this, zero_smul, add_zero]
      exact (hbase b hb).2
  refine ⟨⟨Y, beta, decide (theta1 * tp < 1), forMin⟩, ?_, b0, hb1, by rw [decide_eq_true_iff]; exact b2, b3, hYx, hphys, hYX⟩
  rw [Res.assert_true _ (by
    intro b hb
    rw [eInt_eq, val_eq]
    exact not_lt.mpr (hphys b hb).2), Res.ok_bind]

theorem good_physical {kind : Kind} {rhoEps pEps : ℝ} {u : TU d} {pts : List (Fin N → ℝ)} {x : Fin N → TU d} (h : good kind rhoEps pEps u pts x) :
    ∀ b ∈ pts, Physical rhoEps pEps (valueAt u x b).1 := by
  intro b hb
  obtain ⟨h1, -, -, h4⟩ := h b hb
  rw [eInt_eq, val_eq] at h4
  rw [val_eq] at h1
  exact ⟨not_lt.mp h1, not_lt.mp h4⟩

/-- what the limiter takes without change: at every point density and internal energy at the floors, and the variables of the turbulence model at the floor of the density -/
def Fine (kind : Kind) (rhoEps pEps : ℝ) (u : TU d) (pts : List (Fin N → ℝ)) (x : Fin N → TU d) : Prop :=
  ∀ b ∈ pts, Physical rhoEps pEps (valueAt u x b).1 ∧ (kind = .sa → rhoEps ≤ (valueAt u x b).2.1) ∧
    (kind = .twoEq → rhoEps ≤ (valueAt u x b).2.1 ∧ rhoEps ≤ (valueAt u x b).2.2)

theorem good_iff {kind : Kind} {rhoEps pEps : ℝ} {u : TU d} {pts : List (Fin N → ℝ)} {x : Fin N → TU d} :
    good kind rhoEps pEps u pts x ↔ Fine kind rhoEps pEps u pts x := by
  unfold good Fine goodRow Physical
  simp only [eInt_eq, val_eq, not_or, not_lt]
  exact forall₂_congr fun b _ => ⟨fun ⟨h1, h2, h3, h4⟩ => ⟨⟨h1, h4⟩, h2, h3⟩, fun ⟨⟨h1, h4⟩, h2, h3⟩ => ⟨h1, h2, h3, h4⟩⟩

/-- **C83** Whatever the reconstruction of a cell: if its mean has density and pressure at the floors, the limiter returns, and then at every point of the cell
and its faces the density is at least `rhoEps` and the internal energy at least `pEps`. The density, momentum and energy of the result are the part of the
reconstruction up to some degree `p` below that of the cell and a fraction `t` of the next degree, where no higher degree would have been good, and `t` is the reported factor unless not even
the mean is good, by its further variables, and only the mean is left; with the
flag for the mean (`toMean`) `t` times all of it. The mean itself is no part of what is changed. A reconstruction that is already good is left alone. (`Room`: the floor is not so
near that the guards against division by zero matter.) -/
theorem limited_positive (c : Cfg) (hd : d = 2 ∨ d = 3) (hg1 : 1 < c.gamma) (hg2 : c.gamma ≤ 2) {rhoEps pEps : ℝ} (hr : 0 < rhoEps) (hp : 0 ≤ pEps)
    (toMean : Bool) (u : TU d) (order : Nat) (ho : 1 ≤ order ∧ order ≤ 3) (hN : N + 1 = (order + d).choose d) (pts : List (Fin N → ℝ)) (x : Fin N → TU d)
    (hu : rhoEps ≤ u.1.1 ∧ pEps ≤ (c.gamma - 1) * internal u.1)
    (hroom : ∀ p < order, (∀ b ∈ pts, Physical rhoEps pEps (valueAt u (cut d p x) b).1) → ∀ b ∈ pts, Room pEps (valueAt u (cut d p x) b).1) :
    ∃ r, recBeta c rhoEps pEps toMean u order pts x = .ok r ∧ 0 ≤ r.beta ∧ r.beta ≤ 1 ∧ (r.limited = true ↔ r.beta < 1) ∧
      (r.forMin = r.beta ∨ r.beta = 0 ∧ 0 ≤ r.forMin ∧ r.forMin < 1 / 1000) ∧
      (∀ b ∈ pts, Physical rhoEps pEps (valueAt u r.x b).1) ∧
      (Fine c.kind rhoEps pEps u pts x → r.x = x ∧ r.beta = 1) ∧
      (∃ t, 0 ≤ t ∧ t ≤ 1 ∧ ((toMean = true ∧ ∀ j, (r.x j).1 = t • (x j).1) ∨
        (toMean = false ∧ ∃ p < order, Between d p t (fun j => (x j).1) (fun j => (r.x j).1) ∧
          (∀ q, p < q → q ≤ order → r.beta < 1 → ¬ Fine c.kind rhoEps pEps u pts (cut d q x)) ∧
          (t = r.beta ∨ p = 0 ∧ t = 0 ∧ ¬ Fine c.kind rhoEps pEps u pts (cut d 0 x))))) := by
  simp only [← good_iff]
  have cutfst : ∀ (p : Nat) (j : Fin N), (cut d p x j).1 = cut d p (fun j => (x j).1) j := by
    intro p j
    simp only [cut]
    split <;> rfl
  have hmean : ∀ b : Fin N → ℝ, valueAt u (cut d 0 x) b = u := by
    intro b
    rw [cut_zero, valueAt]
    simp
  have hpE : pEps ≤ internal u.1 := by
    rcases le_total 0 (internal u.1) with h | h
    · nlinarith [hu.2]
    · nlinarith [hu.2]
  simp only [recBeta]
  rw [Res.assert_true (u.1.c0 ≥ rhoEps) hu.1, Res.ok_bind, eInt_eq, Res.assert_true _ hu.2, Res.ok_bind]
  by_cases hgood : good c.kind rhoEps pEps u pts x
  · rw [if_pos hgood]
    refine ⟨_, rfl, zero_le_one, le_rfl, by simp, Or.inl rfl, good_physical hgood, fun _ => ⟨rfl, rfl⟩, 1, zero_le_one, le_rfl, ?_⟩
    cases toMean with
    | true => exact Or.inl ⟨rfl, fun j => (one_smul ℝ _).symm⟩
    | false =>
      refine Or.inr ⟨rfl, order - 1, by omega, fun j => ?_, fun _ _ _ h => absurd h (lt_irrefl _), Or.inl rfl⟩
      rw [Nat.sub_add_cancel ho.1, cut_all d order hN, one_smul]
      abel
  · rw [if_neg hgood]
    obtain ⟨s, hs, hcase⟩ := lower_spec hd c.kind rhoEps pEps u pts (if toMean then 1 else order) (by split <;> omega) x x
    rw [hs, Res.ok_bind]
    have hpos : 0 < (if toMean then 1 else order) := by split <;> omega
    rcases hcase with ⟨p, hpo, hg, h2, h1, h3⟩ | ⟨-, h, h3⟩ | ⟨h0, -⟩
    · have hpo' : p < order := by
        revert hpo
        split <;> omega
      have hb := good_physical hg
      obtain ⟨r, hr1, r0, r1, rl, rm, rx, rp, -⟩ := compressTo_spec c hg1 (by linarith) hr hp u pts s.1 s.2 (pCent := (c.gamma - 1) * internal u.1) (by rw [h2]; exact hb)
        (Or.inl (by rw [h2]; exact hroom p hpo' hb))
      refine ⟨r, hr1, r0, r1, rl, rm, rp, fun h => absurd h hgood, r.beta, r0, r1, ?_⟩
      cases toMean with
      | true =>
        have hp0 : p = 0 := by simpa using hpo
        subst hp0
        refine Or.inl ⟨rfl, fun j => ?_⟩
        rw [rx j, h2, h1, cut_zero, if_pos (by simp)]
        simp
      | false =>
        refine Or.inr ⟨rfl, p, hpo', fun j => ?_, fun q q1 q2 _ => ?_, Or.inl rfl⟩
        swap
        · by_cases e : q = order
          · rw [e, cut_all d order hN]
            exact hgood
          · exact h3 q q1 (by simp only [Bool.false_eq_true, if_false]; omega)
        have e1 : (s.1 j).1 = cut d (p + 1) (fun j => (x j).1) j := by
          rw [h1, ← cutfst]
          simp only [Bool.false_eq_true, if_false]
          by_cases e : p + 1 = order
          · rw [if_pos e, e, cut_all d order hN]
          · rw [if_neg e]
        show (r.x j).1 = _
        rw [rx j, e1, h2, cutfst]
    · have e1 : s.1 = cut d 0 x := by rw [h]
      have e2 : s.2 = cut d 0 x := by rw [h]
      obtain ⟨r, hr1, r0, r1, rl, rm, rx, rp, -⟩ := compressTo_spec c hg1 (by linarith) hr hp u pts s.1 s.2 (pCent := (c.gamma - 1) * internal u.1)
        (by
          intro b _
          rw [e2, hmean]
          exact ⟨hu.1, hpE⟩)
        (Or.inr (by
          intro hc b _
          rw [e2, hmean, e1]
          refine ⟨?_, by simp⟩
          rw [div_le_iff₀ (by linarith), mul_comm]
          linarith))
      refine ⟨r, hr1, r0, r1, rl, rm, rp, fun h => absurd h hgood, 0, le_rfl, zero_le_one, ?_⟩
      have hz : ∀ j, (r.x j).1 = 0 := by
        intro j
        rw [rx j, e1, e2, cut_zero]
        simp
      cases toMean with
      | true => exact Or.inl ⟨rfl, fun j => by rw [hz j, zero_smul]⟩
      | false =>
        refine Or.inr ⟨rfl, 0, by omega, fun j => ?_, fun q _ q2 _ => ?_, Or.inr ⟨rfl, rfl, h3 0 hpos⟩⟩
        swap
        · by_cases e : q = order
          · rw [e, cut_all d order hN]
            exact hgood
          · exact h3 q (by simp only [Bool.false_eq_true, if_false]; omega)
        show (r.x j).1 = _
        rw [hz j, cut_zero, zero_smul, add_zero]
    · omega

end DNDSR.Pos
