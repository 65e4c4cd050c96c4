import Verif.Props.RecIter

/-!
# C82: differences of the reconstruction system, and sweeps on them

`DoReconstructionIterDiff` is the linear part of the residual, which is what the Krylov solvers of the reconstruction need, and
`DoReconstructionIterSOR` a sweep on it.
-/

namespace DNDSR.RecIt

open DNDSR.Elem DNDSR.IMap DNDSR.MeshAdj DNDSR.Faces
open DNDSR.Flux (nSides at64_ok firstSide isSlot_of lt_of_isSlot nSides_eq)
open DNDSR.Sweep (Mates loc loc_eq mate_is mate_ne row_of own_index own_of_lt nOwn_le is_own_add own_lt mate_place order order_nodup mem_order split_order Seen mate_lt owner)
open Matrix

variable {N V : Nat} {K : Type} [Field K]
variable {cl nl : List Nat} {gc : GOM} {ranks : List RankIn} {outs : List RankOut} {rs : List (Rk N V K)} {P : Prob N V K}

/-! ## The linear part -/

/-- `DoReconstructionIterDiff` writes the linearised system, applied to `uRecDiff`, into `uRecNew`, whatever the partition. -/
theorem diff_linear (h : OnMesh cl nl gc ranks outs rs P) {X Δ : Nat → Matrix (Fin N) (Fin V) K} (hX : Has cl ranks rs (·.x) X) (hΔ : Has cl ranks rs (·.d) Δ) :
    ∃ rs', diffAll P.T rs = .ok rs' ∧ OnMesh cl nl gc ranks outs rs' P ∧ Has cl ranks rs' (·.x) X ∧ Has cl ranks rs' (·.d) Δ ∧ HasOwn cl rs' (·.y) (P.linear X Δ) := by
  obtain ⟨rs', e1, g1, h1⟩ := each_rank h (fun s => do
      let y ← iterDiff P.T s.sys s.u s.x s.d s.y
      .ok { s with y := y }) (fun r x s s' => (s'.x = s.x ∧ s'.d = s.d) ∧ ∀ l < x.nOwn, s'.y[l]? = some (P.linear X Δ (before cl r + l))) (by
    intro r x s hx hs
    obtain ⟨hn, _, _⟩ := h.own r x s hx hs
    obtain ⟨hlx, hly, hld⟩ := h.lens r x s hx hs
    have hle := nOwn_le (h.dist.holds r x hx)
    obtain ⟨y, e, l1, _, hv⟩ := sweep_map (fun l => diffBody P.T s.sys s.u s.x s.d l) (fun l => P.linear X Δ (before cl r + l)) s.sys.n s.y (by omega) (by
      intro l hl
      have hl : l < x.nOwn := by omega
      rw [diffBody_rank h hx hs hl]
      obtain ⟨w1, _⟩ := has_getD h hX hx hs hl
      obtain ⟨v1, v2⟩ := has_getD h hΔ hx hs hl
      have w1' : s.x.getD l 0 = X (before cl r + l) := w1
      have v1' : s.d.getD l 0 = Δ (before cl r + l) := v1
      rw [w1', v1']
      congr 2
      exact Finset.sum_congr rfl fun j hj => linPart_congr fun i' hm => v2 j (Finset.mem_range.1 hj) i' hm)
    refine ⟨{ s with y := y }, ?_, rfl, rfl, ⟨hlx, by rw [← hly]; exact l1, hld⟩, ⟨rfl, rfl⟩, fun l hl => getD_some (by show l < y.length; omega) (hv l (by omega))⟩
    simp only [iterDiff, e, Res.ok_bind])
  refine ⟨rs', e1, g1, ?_, ?_, ?_⟩
  · intro r x s' i l hx hs' hi
    obtain ⟨x', s, hx', hs, e, _⟩ := h1 r s' hs'
    show s'.x[l]? = _
    rw [e.1]; exact hX r x s i l hx hs hi
  · intro r x s' i l hx hs' hi
    obtain ⟨x', s, hx', hs, e, _⟩ := h1 r s' hs'
    show s'.d[l]? = _
    rw [e.2]; exact hΔ r x s i l hx hs hi
  · intro r s' i hs' hoi
    obtain ⟨x, s, hx, hs, _, e⟩ := h1 r s' hs'
    have := e _ (own_index (h.dist.holds r x hx) hoi).2
    rwa [own_pos hoi] at this

theorem carryM_sub (hA : P.Additive) (i j : Nat) (M M' : Matrix (Fin N) (Fin V) K) : P.carryM i j (M - M') = P.carryM i j M - P.carryM i j M' := by
  funext k
  show P.carry i j (M k - M' k) = P.carry i j (M k) - P.carry i j (M' k)
  unfold Prob.carry
  dsimp only
  obtain ⟨a1, a2⟩ := hA (P.zone (P.F i j))
  rw [a1, a2]
  split_ifs <;> rfl

/-- The differences the boundary condition is asked for are those of its values. -/
def Exact (P : Prob N V K) : Prop := ∀ i < P.G.length, ∀ j < nSides P.G i, P.mate i j = none → ∀ x d,
  P.bc (P.F i j) (x - d) (P.U i) = P.bc (P.F i j) x (P.U i) - P.bcd (P.F i j) x d (P.U i)

/-- Taking a difference off the coefficients takes the linearised system of it off the residual. -/
theorem residual_sub (hA : P.Additive) (hE : Exact P) (X Δ : Nat → Matrix (Fin N) (Fin V) K) {i : Nat} (hi : i < P.G.length) :
    P.residual (fun i => X i - Δ i) i = P.residual X i - P.linear X Δ i := by
  unfold Prob.residual Prob.linear
  rw [sub_sub_sub_comm, ← Finset.sum_sub_distrib]
  congr 1
  refine Finset.sum_congr rfl fun j hj => ?_
  unfold Prob.part Prob.linPart
  cases hm : P.mate i j with
  | none => simp only [hE i hi j (Finset.mem_range.1 hj) hm, Matrix.mul_sub]
  | some i' => simp only [carryM_sub hA, Matrix.mul_sub]; abel

/-- So the correction a Krylov solver finds solves the system: if `DoReconstructionIterDiff` maps it to the residual. -/
theorem correction_solves (hA : P.Additive) (hE : Exact P) (X Δ : Nat → Matrix (Fin N) (Fin V) K) :
    (∀ i < P.G.length, P.linear X Δ i = P.residual X i) ↔ P.Solves (fun i => X i - Δ i) := by
  constructor
  · intro h i hi
    rw [residual_sub hA hE X Δ hi, h i hi, sub_self]
  · intro h i hi
    have := h i hi
    rw [residual_sub hA hE X Δ hi] at this
    exact (sub_eq_zero.1 this).symm

/-! ## Sweeps -/

open Classical in
/-- One call of `DoReconstructionIterSOR`, in either direction. -/
theorem sor_sweep (h : OnMesh cl nl gc ranks outs rs P) {X Δ Y0 : Nat → Matrix (Fin N) (Fin V) K} (hX : Has cl ranks rs (·.x) X) (hΔ : Has cl ranks rs (·.d) Δ)
    (hY : Has cl ranks rs (·.y) Y0) (reverse : Bool) :
    ∃ rs' Y, sorAll P.T reverse rs = .ok rs' ∧ OnMesh cl nl gc ranks outs rs' P ∧ Has cl ranks rs' (·.x) X ∧ Has cl ranks rs' (·.d) Δ ∧ HasOwn cl rs' (·.y) Y ∧
      ∀ r i, Owns cl r (i : Nat) → Y i = grow (fun j a => P.relax i • P.linPart i j (X i) a fun i' => if Seen cl false (!reverse) r i i' then Y i' else Y0 i')
        (nSides P.G i) ((1 - P.relax i) • Y0 i + Δ i) := by
  obtain ⟨rs', e1, g1, h1⟩ := each_rank h (fun s => do
      let y ← iterSOR P.T s.sys s.u s.x s.d s.y reverse
      .ok { s with y := y }) (fun r x s s' => (s'.x = s.x ∧ s'.d = s.d) ∧
        ∀ l < x.nOwn, s'.y.getD l 0 = grow (fun j a => P.relax (before cl r + l) • P.linPart (before cl r + l) j (X (before cl r + l)) a fun i' =>
          if Seen cl false (!reverse) r (before cl r + l) i' then s'.y.getD (loc x i') 0 else Y0 i') (nSides P.G (before cl r + l))
          ((1 - P.relax (before cl r + l)) • Y0 (before cl r + l) + Δ (before cl r + l))) (by
    intro r x s hx hs
    obtain ⟨hn, _, _⟩ := h.own r x s hx hs
    obtain ⟨hlx, hly, hld⟩ := h.lens r x s hx hs
    have hH := h.dist.holds r x hx
    have hle := nOwn_le hH
    obtain ⟨w, e, l1, _, hv⟩ := sweep_spec (sorBody P.T s.sys s.u s.x s.d)
      (fun l w => grow (fun j a => P.relax (before cl r + l) • localLin P x (before cl r + l) (s.x.getD l 0) w j a) (nSides P.G (before cl r + l))
        ((1 - P.relax (before cl r + l)) • w l + s.d.getD l 0))
      x.cells.length (order (!reverse) s.sys.n) s.y hly (order_nodup _ _) (fun l hl => by have := (mem_order _ _ _).1 hl; omega)
      (fun l hl w hw => sorBody_rank h hx hs (by have := (mem_order _ _ _).1 hl; omega) w hw)
    refine ⟨{ s with y := w }, by simp only [iterSOR, e, Res.ok_bind], rfl, rfl, ⟨hlx, l1, hld⟩, ⟨rfl, rfl⟩, ?_⟩
    intro l hl
    show w.getD l 0 = _
    obtain ⟨pre, post, hsp, hpre⟩ := split_order (!reverse) s.sys.n l (by omega)
    have x1 : s.x.getD l 0 = X (before cl r + l) := (has_getD h hX hx hs hl).1
    have d1 : s.d.getD l 0 = Δ (before cl r + l) := (has_getD h hΔ hx hs hl).1
    obtain ⟨w1, w2⟩ := has_getD h hY hx hs hl
    rw [hv pre l post hsp, x1, d1]
    have hlp : l ∉ pre := fun h => by
      have := (hpre l).1 h
      revert this
      cases reverse <;> simp
    have hbeta : (fun o => if o ∈ pre then w.getD o 0 else s.y.getD o 0) l = Y0 (before cl r + l) := by
      show (if l ∈ pre then w.getD l 0 else s.y.getD l 0) = _
      rw [if_neg hlp, w1]
    rw [hbeta]
    refine grow_congr (fun j hj a => ?_) _
    congr 1
    refine linPart_congr fun i' hm => ?_
    obtain ⟨p1, p2, p3, p4⟩ := mate_place h.dist h.num h.mates hx hl hj hm
    have : loc x i' ∈ pre ↔ Seen cl false (!reverse) r (before cl r + l) i' := by
      rw [hpre, hn, p3, Seen]
      simp only [true_and]
      refine and_congr_right fun ho => ?_
      have := p4 ho
      cases reverse
      · simp only [Bool.not_false, if_true]; omega
      · simp only [Bool.not_true, Bool.false_eq_true, if_false]; omega
    simp only [this, w2 j hj i' hm])
  obtain ⟨Y, hY'⟩ := own_exists g1 (fun s => s.y) (fun r x s hx hs => (g1.lens r x s hx hs).2.1)
  refine ⟨rs', Y, e1, g1, ?_, ?_, hY', ?_⟩
  · intro r x s' i l hx hs' hi
    obtain ⟨x', s, hx', hs, e, _⟩ := h1 r s' hs'
    show s'.x[l]? = _
    rw [e.1]; exact hX r x s i l hx hs hi
  · intro r x s' i l hx hs' hi
    obtain ⟨x', s, hx', hs, e, _⟩ := h1 r s' hs'
    show s'.d[l]? = _
    rw [e.2]; exact hΔ r x s i l hx hs hi
  intro r i hoi
  have hr : r < rs'.length := by rw [g1.size, h.dist.nranks]; exact hoi.1
  have hs' := List.getElem?_eq_getElem hr
  obtain ⟨x, s, hx, hs, _, hw2⟩ := h1 r _ hs'
  have hH := h.dist.holds r x hx
  have hwY : ∀ i' : Nat, Owns cl r i' → rs'[r].y.getD ((i' : Int) - before cl r).toNat 0 = Y i' := by
    intro i' ho'
    have h3 : rs'[r].y[((i' : Int) - before cl r).toNat]? = some (Y i') := hY' r _ i' hs' ho'
    rw [List.getD_eq_getElem?_getD, h3]; rfl
  have h6 := hw2 _ (own_index hH hoi).2
  rw [own_pos hoi, hwY i hoi] at h6
  rw [h6]
  refine grow_congr (fun j hj a => ?_) _
  congr 1
  refine linPart_congr fun i' _ => ?_
  by_cases hS : Seen cl false (!reverse) r i i'
  · rw [if_pos hS, if_pos hS, loc_eq hH (own_index hH hS.2.1).1, hwY i' hS.2.1]
  · rw [if_neg hS, if_neg hS]

theorem linear_congr {X Δ Δ' : Nat → Matrix (Fin N) (Fin V) K} {i : Nat} (h0 : Δ i = Δ' i)
    (h1 : ∀ j < nSides P.G i, ∀ i', P.mate i j = some i' → Δ i' = Δ' i') : P.linear X Δ i = P.linear X Δ' i := by
  unfold Prob.linear
  rw [h0]
  congr 1
  exact Finset.sum_congr rfl fun j hj => linPart_congr fun i' hm => h1 j (Finset.mem_range.1 hj) i' hm

/-- `DoReconstructionIterSOR` leaves a difference as it is exactly when `relax` times the linearised system maps it to `uRecInc`: with `relax = 1` when
it solves the system, and otherwise not. -/
theorem sor_fixed_iff (h : OnMesh cl nl gc ranks outs rs P) {X Δ Y0 : Nat → Matrix (Fin N) (Fin V) K} (hX : Has cl ranks rs (·.x) X) (hΔ : Has cl ranks rs (·.d) Δ)
    (hY : Has cl ranks rs (·.y) Y0) (hb : P.BlindD) (reverse : Bool) :
    ∃ rs' Y, sorAll P.T reverse rs = .ok rs' ∧ OnMesh cl nl gc ranks outs rs' P ∧ HasOwn cl rs' (·.y) Y ∧
      ((∀ i < P.G.length, Y i = Y0 i) ↔ ∀ i < P.G.length, P.relax i • P.linear X Y0 i = Δ i) := by
  classical
  obtain ⟨rs', Y, e, g, _, _, hy, hv⟩ := sor_sweep h hX hΔ hY reverse
  refine ⟨rs', Y, e, g, hy, ?_⟩
  have hval : ∀ r i, Owns cl r (i : Nat) → Y i = Y0 i + Δ i - P.relax i • P.linear X (fun i' => if Seen cl false (!reverse) r i i' then Y i' else Y0 i') i := by
    intro r i hoi
    have hi := own_lt h.dist hoi
    rw [hv r i hoi, grow_congr (t' := fun j _ => P.relax i • P.linPart i j (X i) (Y0 i) fun i' => if Seen cl false (!reverse) r i i' then Y i' else Y0 i')]
    · rw [grow_const, ← Finset.smul_sum, Prob.linear, if_neg seen_irrefl, smul_sub, sub_smul, one_smul]
      abel
    · intro j hj a
      congr 1
      unfold Prob.linPart
      cases hm : P.mate i j with
      | none => simp only [hb i hi j hj hm (X i) a (Y0 i)]
      | some i' => rfl
  constructor
  · intro hf i hi
    obtain ⟨r, ho⟩ := owner h.dist hi
    have h4 := hval r i ho
    have : P.linear X (fun i' => if Seen cl false (!reverse) r i i' then Y i' else Y0 i') i = P.linear X Y0 i := by
      refine linear_congr (by rw [hf i hi, ite_self]) fun j hj i' hm => ?_
      rw [hf i' (mate_lt h.mates hj hm), ite_self]
    rw [hf i hi, this, add_sub_assoc, eq_comm, add_eq_left, sub_eq_zero] at h4
    exact h4.symm
  · intro hs
    have step : ∀ r i, Owns cl r (i : Nat) → (∀ i', Seen cl false (!reverse) r i i' → Y i' = Y0 i') → Y i = Y0 i := by
      intro r i ho hS
      have : P.linear X (fun i' => if Seen cl false (!reverse) r i i' then Y i' else Y0 i') i = P.linear X Y0 i := by
        refine linear_congr (by rw [if_neg seen_irrefl]) fun j hj i' hm => ?_
        by_cases hs' : Seen cl false (!reverse) r i i'
        · rw [if_pos hs']; exact hS i' hs'
        · rw [if_neg hs']
      rw [hval r i ho, this, hs i (own_lt h.dist ho), add_sub_cancel_right]
    cases reverse with
    | false =>
        intro i
        induction i using Nat.strong_induction_on with
        | _ i ih =>
            intro hi
            obtain ⟨r, hr⟩ := owner h.dist hi
            exact step r i hr fun i' hS => ih i' (by simpa using hS.2.2) (own_lt h.dist hS.2.1)
    | true =>
        have : ∀ k i, P.G.length - i = k → i < P.G.length → Y i = Y0 i := by
          intro k
          induction k using Nat.strong_induction_on with
          | _ k ih =>
              intro i hk hi
              obtain ⟨r, hr⟩ := owner h.dist hi
              refine step r i hr fun i' hS => ?_
              have h3 : i < i' := by simpa using hS.2.2
              have h4 := own_lt h.dist hS.2.1
              exact ih (P.G.length - i') (by omega) i' rfl h4
        exact fun i hi => this _ i rfl hi

end DNDSR.RecIt
