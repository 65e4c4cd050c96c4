import Verif.Spec.SmoothInd
import Verif.Proof.ReconLaws
import Verif.Proof.Chain
import Verif.Proof.ReorderMove

/-! Helper lemmas for `Verif.Props.SmoothInd`: one cell. -/

namespace DNDSR.SmoothInd

open DNDSR.Rec DNDSR.Jet
open DNDSR.IMap (forRanks)
open Matrix

variable {d N V : Nat}

/-! ## Derivatives -/

theorem pd_shift (f : (Fin d → ℝ) → ℝ) (p : Fin d → ℝ) (i : Fin d) : pd i (fun z => f (fun a => z a + p a)) = fun z => pd i f (fun a => z a + p a) := by
  funext z
  unfold pd
  have e : (fun t => f (fun a => Function.update z i t a + p a)) = fun t => (fun s => f (Function.update (fun a => z a + p a) i s)) (t + p i) := by
    funext t
    show f _ = f _
    congr 1
    funext a
    by_cases h : a = i
    · subst h; simp
    · simp [h]
  rw [e]
  exact deriv_comp_add_const (f := fun s => f (Function.update (fun a => z a + p a) i s)) (p i) (z i)

theorem pdL_shift (L : List (Fin d)) (f : (Fin d → ℝ) → ℝ) (p : Fin d → ℝ) :
    pdL L (fun z => f (fun a => z a + p a)) = fun z => pdL L f (fun a => z a + p a) := by
  induction L with
  | nil => rfl
  | cons i L ih => simp only [pdL]; rw [ih, pd_shift]

theorem smooth_shift {f : (Fin d → ℝ) → ℝ} (hf : Smooth f) (p : Fin d → ℝ) : Smooth fun z => f (fun a => z a + p a) :=
  ContDiff.comp hf (contDiff_pi.2 fun a => (contDiff_apply ℝ ℝ a).add contDiff_const)

theorem jet_shift {R : List (List (Fin d))} {n : Nat} {f : (Fin d → ℝ) → ℝ} {p : Fin d → ℝ} {c : Nat → ℝ} (h : IsJet R n f p c) :
    IsJet R n (fun z => f (fun a => z a + p a)) 0 c := fun k hk => by
  rw [h k hk, pdL_shift]
  congr 1
  funext a
  simp

theorem pdL_const (L : List (Fin d)) (h : L ≠ []) (c : ℝ) : pdL L (fun _ => c) = fun _ => 0 := by
  induction L with
  | nil => exact absurd rfl h
  | cons i L ih =>
      simp only [pdL]
      by_cases hl : L = []
      · subst hl; simp only [pdL]; exact Rec.pd_const i c
      · rw [ih hl]; exact Rec.pd_const i 0

theorem jet_lin {R : List (List (Fin d))} {n : Nat} {f g : (Fin d → ℝ) → ℝ} {p : Fin d → ℝ} {c c' : Nat → ℝ} (hf : Smooth f) (hg : Smooth g)
    (h : IsJet R n f p c) (h' : IsJet R n g p c') (a b : ℝ) : IsJet R n (fun z => a * f z + b * g z) p fun r => a * c r + b * c' r := fun k hk => by
  have := pdL_sum (f := ![f, g]) ![a, b] (fun m => by fin_cases m <;> assumption) (R.getD k [])
  simp only [Fin.sum_univ_two, Matrix.cons_val_zero, Matrix.cons_val_one] at this
  rw [this]
  show a * c k + b * c' k = _
  rw [h k hk, h' k hk]

/-- what holds in both dimensions -/
structure Both (S : Space) (Fr : Frame d) (R : List (List (Fin d))) : Prop where
  laws : Laws S Fr R
  deep : ∀ r, 0 < r → r < S.rows 3 → R.getD r [] ≠ []

theorem both_of {S : Space} {Fr : Frame d} (h : Dim S Fr) : ∃ R, Both S Fr R := by
  cases h with
  | plane => exact ⟨rows2, laws2, fun r h1 h2 => by
      have h2 : r < 10 := h2
      interval_cases r <;> decide⟩
  | space => exact ⟨rows3, laws3, fun r h1 h2 => by
      have h2 : r < 20 := h2
      interval_cases r <;> decide⟩

variable {S : Space} {Fr : Frame d} {R : List (List (Fin d))}

theorem rows_le (B : Both S Fr R) {m : Nat} (hm : m ≤ 3) : S.rows m ≤ S.rows 3 := by
  have := B.laws.r1
  have := B.laws.r2
  have := B.laws.r3
  interval_cases m <;> omega

theorem poly_smooth (B : Both S Fr R) (C : CellIn N V) (v : Fin V) : Smooth (polyOf Fr C v) :=
  (contDiff_const).add (ContDiff.sum fun j _ => contDiff_const.mul (B.laws.smooth C.base j))

/-- what `trace` returns are the derivatives of the cell's polynomials at the centre -/
theorem trace_spec (B : Both S Fr R) (W : Wrap) {m k : Nat} (hm : m ≤ 3) (hk : k ≤ 3) (hN : N = S.rows k - 1) (D : FaceData) (if2c : Bool) (C : CellIn N V)
    (hp : Fr.inPlane C.base (onSide W D.zone if2c D.cent)) :
    ∃ t, trace S W k (S.rows m) D if2c C = .ok t ∧
      ∀ v, IsJet R (S.rows m) (fun z => polyOf Fr C v (fun a => z a + centre Fr W D if2c a)) 0 fun r => t r v := by
  obtain ⟨t, h1, h2⟩ := sideTable_spec B.laws W C.base D.zone if2c hm hk D.cent hp
  refine ⟨_, by unfold trace; rw [h1]; rfl, fun v => jet_shift fun r hr => ?_⟩
  have e : polyOf Fr C v = fun z => ∑ j : Fin (N + 1), Fin.cases (C.u v) (fun j => C.x j v) j * Fin.cases (fun _ => 1) (fun j => Fr.base C.base j) j z := by
    funext z
    rw [Fin.sum_univ_succ]
    show C.u v + _ = C.u v * 1 + _
    rw [mul_one]
    rfl
  have sm : ∀ j : Fin (N + 1), Smooth ((Fin.cases (fun _ => 1) (fun j => Fr.base C.base j) j : (Fin d → ℝ) → ℝ)) := fun j => by
    cases j using Fin.cases with
    | zero => exact contDiff_const
    | succ j => exact B.laws.smooth C.base j
  rw [e, pdL_sum (f := fun j : Fin (N + 1) => (Fin.cases (fun _ => 1) (fun j => Fr.base C.base j) j : (Fin d → ℝ) → ℝ)) _ sm]
  show (∑ j : Fin N, t r j * C.x j v) + (if r = 0 then C.u v else 0) = ∑ j : Fin (N + 1), _
  rw [Fin.sum_univ_succ]
  show _ = C.u v * pdL (R.getD r []) (fun _ => 1) _ + ∑ j : Fin N, C.x j v * pdL (R.getD r []) (Fr.base C.base j) _
  rw [add_comm]
  congr 1
  · by_cases h0 : r = 0
    · subst h0
      rw [if_pos rfl, B.laws.row0]
      show _ = C.u v * 1
      rw [mul_one]
    · rw [if_neg h0, pdL_const _ (B.deep r (by omega) (lt_of_lt_of_le hr (rows_le B hm))), mul_zero]
  · refine Finset.sum_congr rfl fun j _ => ?_
    have := h2 j (by omega) r hr
    exact (congrArg (· * C.x j v) this).trans (mul_comm _ _)

theorem jump_smooth (B : Both S Fr R) (W : Wrap) (C : CellIn N V) (f : FaceIn N V) (v : Fin V) : Smooth (jump Fr W C f v) ∧ Smooth (avg Fr W C f v) := by
  unfold jump avg
  cases f.other with
  | none => exact ⟨contDiff_const, contDiff_const⟩
  | some C' =>
      exact ⟨((smooth_shift (poly_smooth B C v) _).sub (smooth_shift (poly_smooth B C' v) _)).div_const 2,
        ((smooth_shift (poly_smooth B C v) _).add (smooth_shift (poly_smooth B C' v) _)).div_const 2⟩

theorem jet_zero {n : Nat} (t : Nat → ℝ) (h : ∀ r, t r = 0) (p : Fin d → ℝ) : IsJet R n (fun _ => 0) p t := fun k _ => by
  rw [h]
  have : ∀ L : List (Fin d), pdL L (fun _ : Fin d → ℝ => (0 : ℝ)) = fun _ => 0 := fun L => by
    cases L with
    | nil => rfl
    | cons i L => exact pdL_const _ (by simp) 0
  rw [this]

/-- the integrand -/
theorem term0_spec (B : Both S Fr R) (W : Wrap) {m : Nat} (hm : m ≤ 3) (hN : N = S.rows m - 1) (see : List (Fin V)) (C : CellIn N V) (f : FaceIn N V)
    (hs : Sits W Fr C f) :
    ∃ t, term0 S W m see C f = .ok t ∧ ∀ c (h : c < see.length),
      t c = (f.data.fn.area * facePenalty S Fr f.data.fn m (jump Fr W C f see[c]) 0, f.data.fn.area * facePenalty S Fr f.data.fn m (avg Fr W C f see[c]) 0) := by
  obtain ⟨tl, l1, l2⟩ := trace_spec B W hm hm hN f.data f.if2c C hs.1
  have key : ∀ h : (Nat → Fin V → ℝ) × (Nat → Fin V → ℝ),
      (∀ v, IsJet R (S.rows m) (jump Fr W C f v) 0 (fun r => h.1 r v) ∧ IsJet R (S.rows m) (avg Fr W C f v) 0 fun r => h.2 r v) →
      ∃ t, (do
          let IJI ← faceFunctional S f.data.fn (S.rows m) see.length see.length (pick see h.1) (pick see h.1)
          let ISI ← faceFunctional S f.data.fn (S.rows m) see.length see.length (pick see h.2) (pick see h.2)
          Res.ok fun c => (IJI c c * f.data.fn.area, ISI c c * f.data.fn.area)) = Res.ok t ∧ ∀ c (h : c < see.length),
        t c = (f.data.fn.area * facePenalty S Fr f.data.fn m (jump Fr W C f see[c]) 0, f.data.fn.area * facePenalty S Fr f.data.fn m (avg Fr W C f see[c]) 0) := by
    intro h hh
    have conv : ∀ (g : Fin V → (Fin d → ℝ) → ℝ) (t : Nat → Fin V → ℝ), (∀ v, Smooth (g v)) → (∀ v, IsJet R (S.rows m) (g v) 0 fun r => t r v) →
        ∃ T, faceFunctional S f.data.fn (S.rows m) see.length see.length (pick see t) (pick see t) = .ok T ∧
          ∀ c (h : c < see.length), T c c = facePenalty S Fr f.data.fn m (g see[c]) 0 := by
      intro g t hg ht
      obtain ⟨T, h1, h2⟩ := functional_spec B.laws f.data.fn hm (nI := see.length) (nJ := see.length)
        (f := fun c => if h : c < see.length then g see[c] else fun _ => 0) (g := fun c => if h : c < see.length then g see[c] else fun _ => 0)
        (p := 0) (DI := pick see t) (DJ := pick see t)
        (fun c => by
          show Smooth (if h : c < see.length then g see[c] else fun _ => 0)
          split
          · exact hg _
          · exact contDiff_const)
        (fun c => by
          show Smooth (if h : c < see.length then g see[c] else fun _ => 0)
          split
          · exact hg _
          · exact contDiff_const)
        (fun c hc => by
          have := ht see[c]
          simp only [hc, dif_pos, pick]
          exact this)
        (fun c hc => by
          have := ht see[c]
          simp only [hc, dif_pos, pick]
          exact this)
      refine ⟨T, h1, fun c hc => ?_⟩
      rw [h2 c c hc hc]
      simp only [hc, dif_pos]
      exact ip_self_eq _
    obtain ⟨TJ, a1, a2⟩ := conv _ h.1 (fun v => (jump_smooth B W C f v).1) fun v => (hh v).1
    obtain ⟨TS, b1, b2⟩ := conv _ h.2 (fun v => (jump_smooth B W C f v).2) fun v => (hh v).2
    refine ⟨_, by rw [a1, Res.ok_bind, b1]; rfl, fun c hc => ?_⟩
    show (TJ c c * f.data.fn.area, TS c c * f.data.fn.area) = _
    rw [a2 c hc, b2 c hc]
    exact Prod.ext (mul_comm _ _) (mul_comm _ _)
  unfold term0
  rw [l1, Res.ok_bind]
  cases ho : f.other with
  | none =>
      refine key (halves tl none) fun v => ?_
      have e1 : jump Fr W C f v = fun _ => 0 := by funext z; unfold jump; rw [ho]
      have e2 : avg Fr W C f v = fun _ => 0 := by funext z; unfold avg; rw [ho]
      rw [e1, e2]
      exact ⟨jet_zero _ (fun _ => rfl) _, jet_zero _ (fun _ => rfl) _⟩
  | some C' =>
      obtain ⟨tr, r1, r2⟩ := trace_spec B W hm hm hN f.data f.if2cOther C' (hs.2 C' ho)
      simp only [r1, Res.ok_bind]
      refine key (halves tl (some tr)) fun v => ?_
      have s1 := smooth_shift (poly_smooth B C v) (centre Fr W f.data f.if2c)
      have s2 := smooth_shift (poly_smooth B C' v) (centre Fr W f.data f.if2cOther)
      have j1 := jet_lin s1 s2 (l2 v) (r2 v) (1 / 2) (-(1 / 2))
      have j2 := jet_lin s1 s2 (l2 v) (r2 v) (1 / 2) (1 / 2)
      have e1 : jump Fr W C f v = fun z => 1 / 2 * polyOf Fr C v (fun a => z a + centre Fr W f.data f.if2c a) +
          -(1 / 2) * polyOf Fr C' v (fun a => z a + centre Fr W f.data f.if2cOther a) := by
        funext z; unfold jump; rw [ho]; ring
      have e2 : avg Fr W C f v = fun z => 1 / 2 * polyOf Fr C v (fun a => z a + centre Fr W f.data f.if2c a) +
          1 / 2 * polyOf Fr C' v (fun a => z a + centre Fr W f.data f.if2cOther a) := by
        funext z; unfold avg; rw [ho]; ring
      rw [e1, e2]
      refine ⟨?_, ?_⟩
      · have : (fun r => (halves tl (some tr)).1 r v) = fun r => 1 / 2 * tl r v + -(1 / 2) * tr r v := by
          funext r; show (tl r v - tr r v) * 0.5 = _; ring
        rw [this]; exact j1
      · have : (fun r => (halves tl (some tr)).2 r v) = fun r => 1 / 2 * tl r v + 1 / 2 * tr r v := by
          funext r; show (tl r v + tr r v) * 0.5 = _; ring
        rw [this]; exact j2

/-! ## Sums -/

theorem integrate_spec {ι : Type} (ws : List ℝ) {f : Res (ι → ℝ × ℝ)} {t : ι → ℝ × ℝ} (h : f = .ok t) (buf : ι → ℝ × ℝ) :
    integrate ws f buf = .ok fun c => ((buf c).1 + (t c).1 * ws.sum, (buf c).2 + (t c).2 * ws.sum) := by
  subst h
  unfold integrate
  induction ws generalizing buf with
  | nil => simp only [List.foldlM_nil, List.sum_nil, mul_zero, add_zero]; rfl
  | cons w ws ih =>
      rw [List.foldlM_cons]
      show (ws.foldlM _ (fun c => ((buf c).1 + (t c).1 * w, (buf c).2 + (t c).2 * w))) = _
      rw [ih]
      refine congrArg Res.ok ?_
      funext c
      rw [List.sum_cons]
      refine Prod.ext ?_ ?_ <;> (simp only; ring)

theorem sumFaces_spec {ι : Type} (fs : List (FaceIn N V)) (term : FaceIn N V → Res (ι → ℝ × ℝ)) (t : FaceIn N V → ι → ℝ × ℝ)
    (h : ∀ f ∈ fs, term f = .ok (t f)) :
    sumFaces fs term = .ok fun c => ((fs.map fun f => (t f c).1 * f.data.ws.sum).sum, (fs.map fun f => (t f c).2 * f.data.ws.sum).sum) := by
  have key : ∀ (fs : List (FaceIn N V)) (s : ι → ℝ × ℝ), (∀ f ∈ fs, term f = .ok (t f)) →
      fs.foldlM (fun s f => do
        let b ← integrate f.data.ws (term f) fun _ => (0, 0)
        pure fun c => ((s c).1 + (b c).1, (s c).2 + (b c).2)) s =
      Res.ok fun c => ((s c).1 + (fs.map fun f => (t f c).1 * f.data.ws.sum).sum, (s c).2 + (fs.map fun f => (t f c).2 * f.data.ws.sum).sum) := by
    intro fs
    induction fs with
    | nil => intro s _; simp only [List.foldlM_nil, List.map_nil, List.sum_nil, add_zero]; rfl
    | cons f fs ih =>
        intro s h
        rw [List.foldlM_cons, integrate_spec f.data.ws (h f List.mem_cons_self)]
        rw [Res.ok_bind]
        show (fs.foldlM _ (fun c => ((s c).1 + (0 + (t f c).1 * f.data.ws.sum), (s c).2 + (0 + (t f c).2 * f.data.ws.sum)))) = _
        rw [ih _ fun g hg => h g (List.mem_cons_of_mem _ hg)]
        refine congrArg Res.ok ?_
        funext c
        simp only [List.map_cons, List.sum_cons]
        refine Prod.ext ?_ ?_ <;> (simp only; ring)
  unfold sumFaces
  rw [key fs _ h]
  refine congrArg Res.ok ?_
  funext c
  simp only [zero_add]

theorem maxCoeff_spec {n : Nat} (hn : 0 < n) (f : Nat → ℝ) : ∃ y, maxCoeff n f = .ok y ∧ (∀ c < n, f c ≤ y) ∧ ∃ c < n, y = f c := by
  obtain ⟨n, rfl⟩ : ∃ k, n = k + 1 := ⟨n - 1, by omega⟩
  refine ⟨_, rfl, ?_⟩
  clear hn
  induction n with
  | zero => exact ⟨fun c hc => by have : c = 0 := by omega
                                  subst this; exact le_rfl, 0, by omega, rfl⟩
  | succ n ih =>
      obtain ⟨h1, c, hc, h2⟩ := ih
      rw [List.range_succ, List.foldl_append]
      simp only [List.foldl_cons, List.foldl_nil]
      refine ⟨fun c' hc' => ?_, ?_⟩
      · rcases Nat.lt_or_ge c' (n + 1) with h | h
        · exact le_trans (h1 c' h) (le_max_left _ _)
        · have : c' = n + 1 := by omega
          subst this; exact le_max_right _ _
      · rcases max_choice ((List.range n).foldl (fun m i => max m (f (i + 1))) (f 0)) (f (n + 1)) with h | h
        · exact ⟨c, by omega, by rw [h]; exact h2⟩
        · exact ⟨n + 1, by omega, h⟩

/-! ## A cell -/

theorem verySmall_eq : ODE.verySmallReal ℝ = 1 / 10 ^ 200 := by norm_num [ODE.verySmallReal]

theorem largest_of {order : Nat} {vs : List (Fin V)} {ρ : Fin V → ℝ} {n : Nat} {f : Nat → ℝ} {y : ℝ} (hn : n = vs.length)
    (hf : ∀ c (h : c < vs.length), f c = |ρ vs[c]|) (h1 : ∀ c < n, f c ≤ y) (h2 : ∃ c < n, y = f c) : IsLargest order vs ρ (√y * (order : ℝ) ^ 2) := by
  subst hn
  refine ⟨?_, ?_⟩
  · obtain ⟨c, hc, e⟩ := h2
    exact ⟨vs[c], List.getElem_mem hc, by rw [e, hf c hc, mul_comm]⟩
  · rintro _ ⟨v, hv, rfl⟩
    obtain ⟨c, hc, rfl⟩ := List.mem_iff_getElem.1 hv
    rw [mul_comm, ← hf c hc]
    exact mul_le_mul_of_nonneg_right (Real.sqrt_le_sqrt (h1 c hc)) (by positivity)

theorem cell0_spec (B : Both S Fr R) (W : Wrap) {m : Nat} (hm : m ≤ 3) (hN : N = S.rows m - 1) {see : List (Fin V)} (hv : see ≠ []) (C : CellIn N V)
    (fs : List (FaceIn N V)) (hs : ∀ f ∈ fs, Sits W Fr C f) :
    ∃ σ, cell0 S W m see C fs = .ok σ ∧ IsLargest m see (rough S W Fr m C fs) σ := by
  have h1 : ∀ f : FaceIn N V, ∃ t, f ∈ fs → (term0 S W m see C f = .ok t ∧ ∀ c (h : c < see.length),
      t c = (f.data.fn.area * facePenalty S Fr f.data.fn m (jump Fr W C f see[c]) 0, f.data.fn.area * facePenalty S Fr f.data.fn m (avg Fr W C f see[c]) 0)) := fun f => by
    by_cases hf : f ∈ fs
    · obtain ⟨t, h⟩ := term0_spec B W hm hN see C f (hs f hf)
      exact ⟨t, fun _ => h⟩
    · exact ⟨fun _ => (0, 0), fun h => absurd h hf⟩
  choose t ht using h1
  unfold cell0
  rw [sumFaces_spec fs _ t fun f hf => (ht f hf).1, Res.ok_bind]
  obtain ⟨y, e, h1, h2⟩ := maxCoeff_spec (n := see.length) (List.length_pos_of_ne_nil hv)
    fun c => |(fs.map fun f => (t f c).1 * f.data.ws.sum).sum / ((fs.map fun f => (t f c).2 * f.data.ws.sum).sum + ODE.verySmallReal ℝ)|
  rw [e, Res.ok_bind]
  refine ⟨_, rfl, largest_of rfl (fun c hc => ?_) h1 h2⟩
  unfold rough size
  rw [verySmall_eq]
  have a1 : fs.map (fun f => (t f c).1 * f.data.ws.sum) = fs.map fun f => f.data.fn.area * f.data.ws.sum * facePenalty S Fr f.data.fn m (jump Fr W C f see[c]) 0 :=
    List.map_congr_left fun f hf => by rw [(ht f hf).2 c hc]; ring
  have a2 : fs.map (fun f => (t f c).2 * f.data.ws.sum) = fs.map fun f => f.data.fn.area * f.data.ws.sum * facePenalty S Fr f.data.fn m (avg Fr W C f see[c]) 0 :=
    List.map_congr_left fun f hf => by rw [(ht f hf).2 c hc]; ring
  rw [a1, a2]

theorem single_spec (B : Both S Fr R) (F : FaceFn) (a : ℝ) : single S F a = .ok (F.weight 0 ^ 2 * a ^ 2) := by
  have j : IsJet R (S.rows 0) (fun _ : Fin d → ℝ => a) 0 fun _ => a := fun k hk => by
    have : k = 0 := by have := B.laws.r0; omega
    subst this
    rw [B.laws.row0]; rfl
  obtain ⟨t, h1, h2⟩ := functional_spec B.laws F (m := 0) (by omega) (nI := 1) (nJ := 1) (f := fun _ _ => a) (g := fun _ _ => a) (p := 0)
    (DI := fun _ _ => a) (DJ := fun _ _ => a) (fun _ => contDiff_const) (fun _ => contDiff_const) (fun _ _ => j) (fun _ _ => j)
  rw [B.laws.r0] at h1
  unfold single
  rw [h1, Res.ok_bind, h2 0 0 (by omega) (by omega), ip_const]
  refine congrArg Res.ok ?_
  ring

theorem trace_zero (B : Both S Fr R) (W : Wrap) {k : Nat} (hk : k ≤ 3) (hN : N = S.rows k - 1) (D : FaceData) (if2c : Bool) (C : CellIn N V)
    (hp : Fr.inPlane C.base (onSide W D.zone if2c D.cent)) : ∃ t, trace S W k 1 D if2c C = .ok t ∧ t 0 = at0 Fr W C D if2c := by
  obtain ⟨t, h1, h2⟩ := trace_spec B W (m := 0) (by omega) hk hN D if2c C hp
  rw [B.laws.r0] at h1
  refine ⟨t, h1, ?_⟩
  funext v
  have := h2 v 0 (by have := B.laws.r0; omega)
  rw [B.laws.row0] at this
  refine this.trans ?_
  simp [pdL, at0]

theorem term1_spec (B : Both S Fr R) (W : Wrap) {m : Nat} (hm : m ≤ 3) (hN : N = S.rows m - 1) {post : (Fin V → ℝ) → Res (Fin V → ℝ)} {g : (Fin V → ℝ) → Fin V → ℝ}
    (hg : ∀ v, post v = .ok (g v)) (C : CellIn N V) (f : FaceIn N V) (hs : Sits W Fr C f) :
    ∃ t, term1 S W m post C f = .ok t ∧ ∀ v, t v = match f.other with
      | none => (0, 0)
      | some C' => (f.data.fn.area * (f.data.fn.weight 0 ^ 2 * ((g (at0 Fr W C f.data f.if2c) v - g (at0 Fr W C' f.data f.if2cOther) v) / 2) ^ 2),
          f.data.fn.area * (f.data.fn.weight 0 ^ 2 * ((g (at0 Fr W C f.data f.if2c) v + g (at0 Fr W C' f.data f.if2cOther) v) / 2) ^ 2)) := by
  obtain ⟨tl, l1, l2⟩ := trace_zero B W hm hN f.data f.if2c C hs.1
  have key : ∀ h : (Nat → Fin V → ℝ) × (Nat → Fin V → ℝ), ∃ t, (do
      let ts ← forRanks (fun _ v => do
        let J ← single S f.data.fn (h.1 0 v)
        let M ← single S f.data.fn (h.2 0 v)
        Res.ok (J, M)) 0 (List.finRange V)
      Res.ok fun v : Fin V => ((ts.getD v (0, 0)).1 * f.data.fn.area, (ts.getD v (0, 0)).2 * f.data.fn.area)) = Res.ok t ∧
      ∀ v, t v = (f.data.fn.area * (f.data.fn.weight 0 ^ 2 * h.1 0 v ^ 2), f.data.fn.area * (f.data.fn.weight 0 ^ 2 * h.2 0 v ^ 2)) := by
    intro h
    simp only [single_spec B, Res.ok_bind]
    rw [Reorder.forRanks_pure _ (fun v => (f.data.fn.weight 0 ^ 2 * h.1 0 v ^ 2, f.data.fn.weight 0 ^ 2 * h.2 0 v ^ 2)) _ fun _ _ _ => rfl, Res.ok_bind]
    refine ⟨_, rfl, fun v => ?_⟩
    have : ((List.finRange V).map fun v => (f.data.fn.weight 0 ^ 2 * h.1 0 v ^ 2, f.data.fn.weight 0 ^ 2 * h.2 0 v ^ 2)).getD v (0, 0) =
        (f.data.fn.weight 0 ^ 2 * h.1 0 v ^ 2, f.data.fn.weight 0 ^ 2 * h.2 0 v ^ 2) := by
      rw [List.getD_eq_getElem _ _ (by simp)]
      simp
    rw [this]
    exact Prod.ext (mul_comm _ _) (mul_comm _ _)
  unfold term1
  rw [l1, Res.ok_bind, hg, Res.ok_bind, l2]
  cases ho : f.other with
  | none =>
      obtain ⟨t, e, h⟩ := key (halves (fun _ => g (at0 Fr W C f.data f.if2c)) none)
      refine ⟨t, e, fun v => ?_⟩
      rw [h]
      simp [halves]
  | some C' =>
      obtain ⟨tr, r1, r2⟩ := trace_zero B W hm hN f.data f.if2cOther C' (hs.2 C' ho)
      simp only [r1, Res.ok_bind, hg, r2]
      obtain ⟨t, e, h⟩ := key (halves (fun _ => g (at0 Fr W C f.data f.if2c)) (some fun _ => g (at0 Fr W C' f.data f.if2cOther)))
      refine ⟨t, e, fun v => ?_⟩
      rw [h]
      simp only [halves]
      refine Prod.ext ?_ ?_ <;> (simp only; ring)

theorem cell1_spec (B : Both S Fr R) (W : Wrap) {m : Nat} (hm : m ≤ 3) (hN : N = S.rows m - 1) (hV : 0 < V) (wt : Fin V → ℝ)
    {post : (Fin V → ℝ) → Res (Fin V → ℝ)} {g : (Fin V → ℝ) → Fin V → ℝ} (hg : ∀ v, post v = .ok (g v)) (C : CellIn N V)
    (fs : List (FaceIn N V)) (hs : ∀ f ∈ fs, Sits W Fr C f) :
    ∃ σ, cell1 S W m wt post C fs = .ok σ ∧ IsLargest m (List.finRange V) (fun v => rough1 W Fr g C fs v * wt v) σ := by
  have h1 : ∀ f : FaceIn N V, ∃ t, f ∈ fs → (term1 S W m post C f = .ok t ∧ ∀ v, t v = match f.other with
      | none => (0, 0)
      | some C' => (f.data.fn.area * (f.data.fn.weight 0 ^ 2 * ((g (at0 Fr W C f.data f.if2c) v - g (at0 Fr W C' f.data f.if2cOther) v) / 2) ^ 2),
          f.data.fn.area * (f.data.fn.weight 0 ^ 2 * ((g (at0 Fr W C f.data f.if2c) v + g (at0 Fr W C' f.data f.if2cOther) v) / 2) ^ 2))) := fun f => by
    by_cases hf : f ∈ fs
    · obtain ⟨t, h⟩ := term1_spec B W hm hN hg C f (hs f hf)
      exact ⟨t, fun _ => h⟩
    · exact ⟨fun _ => (0, 0), fun h => absurd h hf⟩
  choose t ht using h1
  unfold cell1
  rw [sumFaces_spec fs _ t fun f hf => (ht f hf).1, Res.ok_bind]
  obtain ⟨y, e, h1, h2⟩ := maxCoeff_spec hV
    fun c => if h : c < V then |(fs.map fun f => (t f ⟨c, h⟩).1 * f.data.ws.sum).sum /
      ((fs.map fun f => (t f ⟨c, h⟩).2 * f.data.ws.sum).sum + ODE.verySmallReal ℝ) * wt ⟨c, h⟩| else 0
  rw [e, Res.ok_bind]
  refine ⟨_, rfl, largest_of (by simp) (fun c hc => ?_) h1 h2⟩
  have hc' : c < V := by simpa using hc
  have ev : (List.finRange V)[c] = ⟨c, hc'⟩ := by simp
  rw [dif_pos hc', ev]
  unfold rough1 size
  rw [verySmall_eq]
  refine congrArg (fun a => |a * wt ⟨c, hc'⟩|) (congrArg₂ (fun a b => a / (b + 1 / 10 ^ 200)) (congrArg List.sum ?_) (congrArg List.sum ?_))
  · refine List.map_congr_left fun f hf => ?_
    rw [(ht f hf).2]
    cases f.other with
    | none => simp
    | some C' => simp only; ring
  · refine List.map_congr_left fun f hf => ?_
    rw [(ht f hf).2]
    cases f.other with
    | none => simp
    | some C' => simp only; ring

end DNDSR.SmoothInd
