import Verif.Proof.ReconModel

namespace DNDSR.Rec

open Matrix Jet

variable {d : Nat} {S : Space} {Fr : Frame d} {R : List (List (Fin d))} (L : Laws S Fr R)

theorem integrateM_spec (q : List QPoint) (f : QPoint → Res Tbl) (buf : Tbl) (v : QPoint → Tbl) (ok : Nat → Nat → Prop)
    (h : ∀ g ∈ q, ∃ t, f g = .ok t ∧ ∀ i j, ok i j → t i j = v g i j) :
    ∃ t, integrateM q f buf = .ok t ∧ ∀ i j, ok i j → t i j = buf i j + (q.map fun g => v g i j * g.w).sum := by
  induction q generalizing buf with
  | nil => exact ⟨buf, rfl, fun i j _ => by simp⟩
  | cons g q ih =>
    obtain ⟨t, h1, h2⟩ := h g List.mem_cons_self
    obtain ⟨t', h3, h4⟩ := ih (fun i j => buf i j + t i j * g.w) fun g' hg' => h g' (List.mem_cons_of_mem _ hg')
    refine ⟨t', ?_, fun i j hij => ?_⟩
    · unfold integrateM at h3 ⊢
      rw [List.foldlM_cons, h1]
      exact h3
    · rw [h4 i j hij, h2 i j hij, List.map_cons, List.sum_cons]
      ring

/-- the place of a point -/
noncomputable def pt (W : Wrap) (Fr : Frame d) (s : Side) (g : QPoint) : Fin d → ℝ := Fr.proj (onSide W s.faceID s.if2c g.p)

include L in
theorem cellA_spec (W : Wrap) {m : Nat} (hm : m ≤ 3) (C : CellBase) (sides : List Side) (hs : ∀ s ∈ sides, Sits W Fr C s) :
    ∃ A, cellA S W m C sides = .ok A ∧ ∀ i j, i < S.rows m - 1 → j < S.rows m - 1 →
      A i j = total sides (·.q) fun s g => g.w * g.det * ip S Fr s.F m (Fr.base C i) (Fr.base C j) (pt W Fr s g) := by
  have key : ∀ (sides : List Side) (buf : Tbl), (∀ s ∈ sides, Sits W Fr C s) →
      ∃ A, sides.foldlM (fun A s => integrateM s.q (fun g => do
        let DI ← sideTable S W C s.faceID s.if2c (S.rows m) (S.rows m) g.p
        let v ← faceFunctional S s.F (S.rows m) (S.rows m - 1) (S.rows m - 1) DI DI
        pure fun i j => v i j * g.det) A) buf = Res.ok A ∧ ∀ i j, i < S.rows m - 1 → j < S.rows m - 1 →
        A i j = buf i j + total sides (·.q) fun s g => g.w * g.det * ip S Fr s.F m (Fr.base C i) (Fr.base C j) (pt W Fr s g) := by
    intro sides
    induction sides with
    | nil => exact fun buf _ => ⟨buf, rfl, fun i j _ _ => by simp [total]⟩
    | cons s ss ih =>
      intro buf hs
      obtain ⟨t, h1, h2⟩ := integrateM_spec s.q (fun g => do
        let DI ← sideTable S W C s.faceID s.if2c (S.rows m) (S.rows m) g.p
        let v ← faceFunctional S s.F (S.rows m) (S.rows m - 1) (S.rows m - 1) DI DI
        pure fun i j => v i j * g.det) buf
        (fun g i j => ip S Fr s.F m (Fr.base C i) (Fr.base C j) (pt W Fr s g) * g.det) (fun i j => i < S.rows m - 1 ∧ j < S.rows m - 1) fun g hg => by
          obtain ⟨t, e1, e2⟩ := sideTable_spec L W C s.faceID s.if2c hm hm g.p ((hs s List.mem_cons_self).2.1 g hg)
          obtain ⟨v, e3, e4⟩ := functional_spec L s.F hm (nI := S.rows m - 1) (nJ := S.rows m - 1) (fun i => L.smooth C i) (fun i => L.smooth C i) e2 e2
          refine ⟨fun i j => v i j * g.det, ?_, fun i j hij => ?_⟩
          · rw [e1, Res.ok_bind, e3]; rfl
          · show v i j * g.det = _
            rw [e4 i j hij.1 hij.2]; rfl
      obtain ⟨A, h3, h4⟩ := ih t fun s' hs' => hs s' (List.mem_cons_of_mem _ hs')
      refine ⟨A, ?_, fun i j hi hj => ?_⟩
      · rw [List.foldlM_cons, h1, Res.ok_bind, h3]
      · rw [h4 i j hi hj, h2 i j ⟨hi, hj⟩]
        unfold total
        rw [List.map_cons, List.sum_cons, add_assoc]
        congr 3
        exact List.map_congr_left fun g _ => by ring
  obtain ⟨A, h1, h2⟩ := key sides (fun _ _ => 0) hs
  exact ⟨A, h1, fun i j hi hj => by rw [h2 i j hi hj, zero_add]⟩

include L in
theorem sideB_spec (W : Wrap) {m : Nat} (hm : m ≤ 3) (C : CellBase) (s : Side) (hs : Sits W Fr C s) :
    (0 < s.faceID → s.other = none → ∃ t, sideB S W m C s = .ok t) ∧
    (∀ C', s.faceID ≤ 0 → s.other = some C' → ∃ t, sideB S W m C s = .ok t ∧ ∀ i j, i < S.rows m - 1 → j < S.rows m - 1 →
      t i j = (s.q.map fun g => g.w * g.det *
        ip S Fr s.F m (Fr.base C i) (fun y => Fr.base C' j (across Fr W s.faceID s.if2c y)) (pt W Fr s g)).sum) := by
  constructor
  · intro h1 h2
    refine ⟨fun _ _ => 0, ?_⟩
    unfold sideB
    rw [if_pos h1, h2]
    rfl
  · intro C' h1 h2
    unfold sideB
    rw [if_neg (by omega), h2]
    obtain ⟨_, hp, ht⟩ := across_spec L W s.faceID hs.1 s.if2c
    obtain ⟨t, h3, h4⟩ := integrateM_spec s.q (fun g => do
        let DI ← sideTable S W C s.faceID s.if2c (S.rows m) (S.rows m) g.p
        let DJ ← sideTable S W C' s.faceID (!s.if2c) (S.rows m) (S.rows m) g.p
        let DJ ← transOther S W s.faceID s.if2c (S.rows m) (S.rows m - 1) DJ
        let v ← faceFunctional S s.F (S.rows m) (S.rows m - 1) (S.rows m - 1) DI DJ
        pure fun i j => v i j * g.det) (fun _ _ => 0)
      (fun g i j => ip S Fr s.F m (Fr.base C i) (fun y => Fr.base C' j (across Fr W s.faceID s.if2c y)) (pt W Fr s g) * g.det)
      (fun i j => i < S.rows m - 1 ∧ j < S.rows m - 1) fun g hg => by
        obtain ⟨t, e1, e2⟩ := sideTable_spec L W C s.faceID s.if2c hm hm g.p (hs.2.1 g hg)
        obtain ⟨t', e3, e4⟩ := sideTable_spec L W C' s.faceID (!s.if2c) hm hm g.p (hs.2.2 C' h2 g hg)
        have e5 : Fr.proj (onSide W s.faceID (!s.if2c) g.p) = across Fr W s.faceID s.if2c (pt W Fr s g) := by
          unfold pt; rw [hp, onSide_other W s.faceID hs.1]
        rw [e5] at e4
        obtain ⟨t'', e6, e7⟩ := ht (n := S.rows m - 1) hm (fun j => L.smooth C' j) e4
        obtain ⟨T, b, eA⟩ := (across_spec L W s.faceID hs.1 s.if2c).1
        obtain ⟨v, e8, e9⟩ := functional_spec L s.F hm (nI := S.rows m - 1) (nJ := S.rows m - 1) (fun i => L.smooth C i)
          (fun j => by rw [eA]; exact (L.smooth C' j).comp (affine_smooth T b)) e2 e7
        refine ⟨fun i j => v i j * g.det, ?_, fun i j hij => ?_⟩
        · rw [e1, Res.ok_bind, e3, Res.ok_bind, e6, Res.ok_bind, e8]; rfl
        · show v i j * g.det = _
          rw [e9 i j hij.1 hij.2]; rfl
    refine ⟨t, h3, fun i j hi hj => ?_⟩
    rw [h4 i j ⟨hi, hj⟩, zero_add]
    congr 1
    exact List.map_congr_left fun g _ => by ring

/-- the table of a constant -/
theorem const_jet (hr : R.getD 0 [] = []) (c : ℝ) (p : Fin d → ℝ) (t : Nat → ℝ) (h : t 0 = c) : IsJet R 1 (fun _ => c) p t := fun k hk => by
  have : k = 0 := by omega
  subst this
  rw [hr, h]
  rfl

theorem ip_order0 (F : FaceFn) (m : Nat) (f : (Fin d → ℝ) → ℝ) (c : ℝ) (p : Fin d → ℝ) :
    ip S Fr F 0 f (fun _ => c) p = ip S Fr F m f (fun _ => c) p := by rw [ip_const, ip_const]

include L in
theorem sideb_spec (W : Wrap) {m : Nat} (hm : m ≤ 3) (C : CellBase) (s : Side) (hs : Sits W Fr C s) :
    ∃ t, sideb S W m C s = .ok t ∧ ∀ i, i < S.rows m - 1 →
      t i 0 = (s.q.map fun g => g.w * g.det * ip S Fr s.F m (Fr.base C i) (fun _ => 1) (pt W Fr s g)).sum := by
  unfold sideb
  obtain ⟨t, h3, h4⟩ := integrateM_spec s.q (fun g => do
      let DI ← sideTable S W C s.faceID s.if2c 1 (S.rows m) g.p
      let v ← faceFunctional S s.F 1 (S.rows m - 1) 1 DI fun _ _ => 1
      pure fun i j => v i j * g.det) (fun _ _ => 0)
    (fun g i _ => ip S Fr s.F m (Fr.base C i) (fun _ => 1) (pt W Fr s g) * g.det)
    (fun i j => i < S.rows m - 1 ∧ j < 1) fun g hg => by
      obtain ⟨t, e1, e2⟩ := sideTable_spec L W C s.faceID s.if2c (Nat.zero_le 3) hm g.p (hs.2.1 g hg)
      obtain ⟨v, e8, e9⟩ := functional_spec L s.F (Nat.zero_le 3) (nI := S.rows m - 1) (nJ := 1) (fun i => L.smooth C i)
        (g := fun _ _ => 1) (fun _ => smooth_const 1) (DJ := fun _ _ => 1) e2
        (fun j _ => by rw [L.r0]; exact const_jet L.row0 1 _ _ rfl)
      rw [L.r0] at e1 e8
      refine ⟨fun i j => v i j * g.det, ?_, fun i j hij => ?_⟩
      · rw [e1, Res.ok_bind, e8]; rfl
      · show v i j * g.det = _
        rw [e9 i j hij.1 hij.2, ip_order0 s.F m]; rfl
  refine ⟨t, h3, fun i hi => ?_⟩
  rw [h4 i 0 ⟨hi, by omega⟩, zero_add]
  congr 1
  exact List.map_congr_left fun g _ => by ring

variable {N V : Nat}

include L in
theorem boundaryRHS_spec (W : Wrap) {m : Nat} (hm : m ≤ 3) (hN : S.rows m = N + 1) (C : CellBase) (s : Side) (hs : Sits W Fr C s) (hf : 0 < s.faceID)
    (bnd : QPoint → (Fin V → ℝ) → (Fin V → ℝ) → Fin V → ℝ) (x : Matrix (Fin N) (Fin V) ℝ) (u : Fin V → ℝ) :
    ∃ t, boundaryRHS S W m C s bnd x u = .ok t ∧ ∀ i v,
      t i v = (s.q.map fun g => g.w * g.det *
        ip S Fr s.F m (Fr.base C i) (fun _ => bnd g (inner W Fr C s x u g) u v - u v) (pt W Fr s g)).sum := by
  unfold boundaryRHS
  simp only [Res.assert_true _ hf, Res.ok_bind]
  obtain ⟨t, h3, h4⟩ := integrateM_spec s.q (fun g => do
      let dbv ← sideTable S W C s.faceID s.if2c 1 (S.rows m) g.p
      let v ← faceFunctional S s.F 1 N V dbv fun _ v => if h : v < V then
        bnd g (fun v => (∑ i : Fin N, dbv 0 i * x i v) + u v) u ⟨v, h⟩ - u ⟨v, h⟩ else 0
      pure fun i j => v i j * g.det) (fun _ _ => 0)
    (fun g i j => if h : j < V then
      ip S Fr s.F m (Fr.base C i) (fun _ => bnd g (inner W Fr C s x u g) u ⟨j, h⟩ - u ⟨j, h⟩) (pt W Fr s g) * g.det else 0)
    (fun i j => i < N ∧ j < V) fun g hg => by
      obtain ⟨t, e1, e2⟩ := sideTable_spec L W C s.faceID s.if2c (Nat.zero_le 3) hm g.p (hs.2.1 g hg)
      have hin : (fun v => (∑ i : Fin N, t 0 i * x i v) + u v) = inner W Fr C s x u g := by
        funext v
        unfold inner poly
        rw [add_comm]
        congr 1
        refine Finset.sum_congr rfl fun i _ => ?_
        have := e2 i (by have := i.isLt; omega) 0 (by rw [L.r0]; omega)
        rw [L.row0] at this
        rw [mul_comm]
        congr 1
      obtain ⟨v, e8, e9⟩ := functional_spec L s.F (Nat.zero_le 3) (nI := N) (nJ := V) (fun i => L.smooth C i)
        (g := fun j _ => if h : j < V then bnd g (inner W Fr C s x u g) u ⟨j, h⟩ - u ⟨j, h⟩ else 0) (fun _ => smooth_const _)
        (DJ := fun _ j => if h : j < V then bnd g (inner W Fr C s x u g) u ⟨j, h⟩ - u ⟨j, h⟩ else 0)
        (fun j hj => e2 j (by omega))
        (fun j _ => by rw [L.r0]; exact const_jet L.row0 _ _ _ rfl)
      rw [L.r0] at e1 e8
      refine ⟨fun i j => v i j * g.det, ?_, fun i j hij => ?_⟩
      · rw [e1, Res.ok_bind, hin, e8]; rfl
      · show v i j * g.det = _
        rw [e9 i j hij.1 hij.2, dif_pos hij.2, ip_order0 s.F m]
        simp only [dif_pos hij.2]
        rfl
  rw [h3, Res.ok_bind]
  refine ⟨_, rfl, fun i v => ?_⟩
  show t i v = _
  rw [h4 i v ⟨i.isLt, v.isLt⟩, zero_add]
  congr 1
  refine List.map_congr_left fun g _ => ?_
  rw [dif_pos v.isLt]
  ring

end DNDSR.Rec
