import Verif.Proof.Recon

namespace DNDSR.Rec

open Matrix Jet

variable {d : Nat}

/-- what the dimension has to provide -/
structure Laws (S : Space) (Fr : Frame d) (R : List (List (Fin d))) : Prop where
  row0 : R.getD 0 [] = []
  r0 : S.rows 0 = 1
  r1 : S.rows 0 < S.rows 1
  r2 : S.rows 1 < S.rows 2
  r3 : S.rows 2 < S.rows 3
  smooth : ∀ C j, Smooth (Fr.base C j)
  base : ∀ C p m k, m ≤ 3 → k ≤ 3 → Fr.inPlane C p → ∃ t, S.base C p 0 (S.rows m) (S.rows k) = .ok t ∧
    ∀ j, j + 1 < S.rows k → IsJet R (S.rows m) (Fr.base C j) (Fr.proj p) fun r => t r (j + 1)
  lin : ∀ (D : Per.M3) (b x : Fin d → ℝ) (u : (Fin d → ℝ) → ℝ) (c : Nat → ℝ) m, m ≤ 3 → Smooth u →
    IsJet R (S.rows m) u (affine (Fr.block D) b x) c →
    ∃ c', S.lin D (S.rows m) c = .ok c' ∧ IsJet R (S.rows m) (fun y => u (affine (Fr.block D) b y)) x c'
  norm : ∀ (f g : (Fin d → ℝ) → ℝ) (x : Fin d → ℝ) (c c' : Nat → ℝ) k m, k ≤ m → m ≤ 3 → Smooth f → Smooth g →
    IsJet R (S.rows m) f x c → IsJet R (S.rows m) g x c' → orderNorm S k c c' = contract k f g x
  proj_lift : ∀ y, Fr.proj (Fr.lift y) = y
  keeps_t : ∀ M, Fr.keeps M → Fr.keeps Mᵀ
  affine_proj : ∀ M, Fr.keeps M → ∀ b p, Fr.proj (affine M b p) = affine (Fr.block M) (Fr.proj b) (Fr.proj p)

variable {S : Space} {Fr : Frame d} {R : List (List (Fin d))} (L : Laws S Fr R)

/-! ## The functional of a face -/

include L in
theorem conj_spec (w scale : Nat → ℝ) {m : Nat} (hm : m ≤ 3) {f g : (Fin d → ℝ) → ℝ} (hf : Smooth f) (hg : Smooth g) {x : Fin d → ℝ}
    {c c' : Nat → ℝ} (hc : IsJet R (S.rows m) f x c) (hc' : IsJet R (S.rows m) g x c') (h0 : scale 0 = 1) :
    conj S w scale (S.rows m) c c' = .ok (∑ k ∈ Finset.range (m + 1), w k ^ 2 * scale k * contract k f g x) := by
  have r1 := L.r1
  have r2 := L.r2
  have r3 := L.r3
  have n : ∀ k, k ≤ m → orderNorm S k c c' = contract k f g x := fun k hk => L.norm f g x c c' k m hk hm hf hg hc hc'
  unfold conj
  match m, hm with
  | 0, _ =>
    rw [if_neg (by omega), if_neg (by omega), if_neg (by omega), if_pos rfl, n 0 (by omega)]
    simp only [Finset.sum_range_succ, Finset.sum_range_zero, h0]
    congr 1; ring
  | 1, _ =>
    rw [if_neg (by omega), if_neg (by omega), if_pos rfl, n 0 (by omega), n 1 (by omega)]
    simp only [Finset.sum_range_succ, Finset.sum_range_zero, h0]
    congr 1; ring
  | 2, _ =>
    rw [if_neg (by omega), if_pos rfl, n 0 (by omega), n 1 (by omega), n 2 (by omega)]
    simp only [Finset.sum_range_succ, Finset.sum_range_zero, h0]
    congr 1; ring
  | 3, _ =>
    rw [if_pos rfl, n 0 (by omega), n 1 (by omega), n 2 (by omega), n 3 (by omega)]
    simp only [Finset.sum_range_succ, Finset.sum_range_zero, h0]
    congr 1; ring

theorem inner_entries (i nJ : Nat) (f : Nat → Nat → Res ℝ) (v : Nat → Nat → ℝ) (t : Tbl) (h : ∀ j, j < nJ → f i j = .ok (v i j)) :
    ∃ t', (List.range nJ).foldlM (fun (t : Tbl) j => do
      let v ← f i j
      pure fun a b => if a = i ∧ b = j then v else t a b) t = Res.ok t' ∧
      (∀ j, j < nJ → t' i j = v i j) ∧ ∀ a b, a ≠ i → t' a b = t a b := by
  induction nJ with
  | zero => exact ⟨t, rfl, fun j hj => by omega, fun _ _ _ => rfl⟩
  | succ n ih =>
    obtain ⟨t', h1, h2, h3⟩ := ih fun j hj => h j (by omega)
    refine ⟨fun a b => if a = i ∧ b = n then v i n else t' a b, ?_, fun j hj => ?_, fun a b ha => ?_⟩
    · rw [List.range_succ, List.foldlM_append, h1]
      rw [Res.ok_bind, List.foldlM_cons, h n (by omega)]
      rfl
    · show (if i = i ∧ j = n then v i n else t' i j) = v i j
      by_cases hj' : j = n
      · subst hj'; rw [if_pos ⟨rfl, rfl⟩]
      · rw [if_neg (fun hh => hj' hh.2)]; exact h2 j (by omega)
    · show (if a = i ∧ b = n then v i n else t' a b) = t a b
      rw [if_neg (fun hh => ha hh.1)]; exact h3 a b ha

theorem entries_spec (nI nJ : Nat) (f : Nat → Nat → Res ℝ) (v : Nat → Nat → ℝ) (h : ∀ i j, i < nI → j < nJ → f i j = .ok (v i j)) :
    ∃ t, entries nI nJ f = .ok t ∧ ∀ i j, i < nI → j < nJ → t i j = v i j := by
  induction nI with
  | zero => exact ⟨_, rfl, fun i j hi => by omega⟩
  | succ n ih =>
    obtain ⟨t, h1, h2⟩ := ih fun i j hi hj => h i j (by omega) hj
    obtain ⟨t', h3, h4, h5⟩ := inner_entries n nJ f v t fun j hj => h n j (by omega) hj
    refine ⟨t', ?_, fun i j hi hj => ?_⟩
    · unfold entries at h1 ⊢
      rw [List.range_succ, List.foldlM_append, h1]
      rw [Res.ok_bind, List.foldlM_cons, h3]
      rfl
    · by_cases hi' : i = n
      · subst hi'; exact h4 j hj
      · rw [h5 i j hi']; exact h2 i j (by omega) hj

include L in
theorem functional_spec (F : FaceFn) {m : Nat} (hm : m ≤ 3) {nI nJ : Nat} {f g : Nat → (Fin d → ℝ) → ℝ} (hf : ∀ i, Smooth (f i))
    (hg : ∀ j, Smooth (g j)) {p : Fin d → ℝ} {DI DJ : Tbl} (hI : ∀ i, i < nI → IsJet R (S.rows m) (f i) p fun r => DI r i)
    (hJ : ∀ j, j < nJ → IsJet R (S.rows m) (g j) p fun r => DJ r j) :
    ∃ t, faceFunctional S F (S.rows m) nI nJ DI DJ = .ok t ∧ ∀ i j, i < nI → j < nJ → t i j = ip S Fr F m (f i) (g j) p := by
  unfold faceFunctional
  by_cases ha : F.anisotropic = true
  · rw [if_pos ha]
    have ht : ∀ {n : Nat} {h : Nat → (Fin d → ℝ) → ℝ} {D : Tbl}, (∀ i, Smooth (h i)) → (∀ i, i < n → IsJet R (S.rows m) (h i) p fun r => D r i) →
        ∃ D', eachColumn (S.lin (coordTrans S F) (S.rows m)) n D = .ok D' ∧
          ∀ i, i < n → IsJet R (S.rows m) (fun y => h i (affine (Fr.block (coordTrans S F)) p y)) 0 fun r => D' r i := by
      intro n h D hs hD
      have e : affine (Fr.block (coordTrans S F)) p 0 = p := by funext a; simp [affine]
      have key : ∀ i, ∃ c', i < n → S.lin (coordTrans S F) (S.rows m) (fun r => D r i) = .ok c' ∧
          IsJet R (S.rows m) (fun y => h i (affine (Fr.block (coordTrans S F)) p y)) 0 c' := fun i => by
        by_cases hi : i < n
        · obtain ⟨c', h1, h2⟩ := L.lin (coordTrans S F) p 0 (h i) (fun r => D r i) m hm (hs i) (by rw [e]; exact hD i hi)
          exact ⟨c', fun _ => ⟨h1, h2⟩⟩
        · exact ⟨fun _ => 0, fun hh => absurd hh hi⟩
      choose C hC using key
      obtain ⟨D', h1, h2, _⟩ := eachColumn_spec (S.lin (coordTrans S F) (S.rows m)) n D C fun j hj => (hC j hj).1
      refine ⟨D', h1, fun i hi => ?_⟩
      rw [h2 i hi]
      exact (hC i hi).2
    obtain ⟨DI', h1, h2⟩ := ht hf hI
    obtain ⟨DJ', h3, h4⟩ := ht hg hJ
    rw [h1, Res.ok_bind, h3, Res.ok_bind]
    refine entries_spec nI nJ _ _ fun i j hi hj => ?_
    rw [conj_spec L F.weight (fun _ => 1) hm ((hf i).comp (affine_smooth _ _)) ((hg j).comp (affine_smooth _ _)) (h2 i hi) (h4 j hj) rfl]
    congr 1
    unfold ip
    rw [if_pos ha]
    exact Finset.sum_congr rfl fun k _ => by rw [one_pow]
  · rw [if_neg ha]
    refine entries_spec nI nJ _ _ fun i j hi hj => ?_
    rw [conj_spec L F.weight _ hm (hf i) (hg j) (hI i hi) (hJ j hj) (by simp)]
    congr 1
    unfold ip
    rw [if_neg ha]
    exact Finset.sum_congr rfl fun k _ => by rw [mul_comm k 2]

/-! ## The points and the tables -/

theorem main_donor (id : Int) : (isMain id = true ↔ id = -1 ∨ id = -2 ∨ id = -3) ∧ (Per.isDonor id = true ↔ id = -4 ∨ id = -5 ∨ id = -6) ∧
    (Per.isPeriodic id = true ↔ isMain id = true ∨ Per.isDonor id = true) := by
  simp only [isMain, Per.isDonor, Per.isPeriodic, Bool.or_eq_true, beq_iff_eq]
  omega

theorem axis_of (id : Int) (h : isMain id = true ∨ Per.isDonor id = true) : ∃ i, Per.axisOf id = some i := by
  rw [(main_donor id).1, (main_donor id).2.1] at h
  rcases h with (rfl | rfl | rfl) | (rfl | rfl | rfl) <;> exact ⟨_, rfl⟩

theorem coord_affine (P : Per.Periodicity) {id : Int} {i : Fin 4} (h : Per.axisOf id = some i) :
    (∃ b, ∀ p, Per.transCoord P p id = .ok (affine (P.rotation i)ᵀ b p)) ∧ ∃ b, ∀ p, Per.transCoordBack P p id = .ok (affine (P.rotation i) b p) := by
  constructor
  · refine ⟨fun m => P.rotationCenter i m + P.translation i m - (P.rotation i *ᵥ P.rotationCenter i) m, fun p => ?_⟩
    rw [Per.transCoord, Per.slot_ok h]
    show Res.ok _ = Res.ok _
    congr 1
    funext m
    rw [Matrix.mulVec_sub]
    simp only [Pi.add_apply, Pi.sub_apply, affine, Matrix.mulVec, dotProduct, Matrix.transpose_apply]
    ring
  · refine ⟨fun m => P.rotationCenter i m - ((P.rotation i)ᵀ *ᵥ (P.translation i + P.rotationCenter i)) m, fun y => ?_⟩
    rw [Per.transCoordBack, Per.slot_ok h]
    show Res.ok _ = Res.ok _
    congr 1
    have e : y - P.translation i - P.rotationCenter i = y - (P.translation i + P.rotationCenter i) := by abel
    funext m
    rw [e, Matrix.mulVec_sub]
    simp only [Pi.add_apply, Pi.sub_apply, affine, Matrix.mulVec, dotProduct, Matrix.transpose_apply]
    ring

theorem facePoint_spec (W : Wrap) (id : Int) (if2c : Bool) (p : Per.V3) : facePoint W id if2c p = .ok (onSide W id if2c p) := by
  unfold facePoint onSide toOther
  obtain ⟨hm, hd, hp⟩ := main_donor id
  cases hW : W.isPeriodic with
  | false => simp
  | true =>
    by_cases h1 : isMain id = true
    · have h1' := hm.mp h1
      have h3 : Per.isPeriodic id = true := hp.mpr (.inl h1)
      obtain ⟨i, hi⟩ := axis_of id (.inl h1)
      obtain ⟨b, hb⟩ := (coord_affine W.P hi).1
      cases if2c <;> simp [h1, h1', h3, hb]
    · have h1' := mt hm.mpr h1
      by_cases h2 : Per.isDonor id = true
      · have h2' := hd.mp h2
        have h3 : Per.isPeriodic id = true := hp.mpr (.inr h2)
        obtain ⟨i, hi⟩ := axis_of id (.inr h2)
        obtain ⟨b, hb⟩ := (coord_affine W.P hi).2
        cases if2c <;> simp [h1, h1', h2, h2', h3, hb]
      · have h2' := mt hd.mpr h2
        have h3 : Per.isPeriodic id = false := by
          rw [Bool.eq_false_iff]; exact fun h => (hp.mp h).elim h1 h2
        cases if2c <;> simp [h1', h2', h3]

include L in
theorem sideTable_spec (W : Wrap) (C : CellBase) (id : Int) (if2c : Bool) {m k : Nat} (hm : m ≤ 3) (hk : k ≤ 3) (p : Per.V3)
    (hp : Fr.inPlane C (onSide W id if2c p)) :
    ∃ t, sideTable S W C id if2c (S.rows m) (S.rows k) p = .ok t ∧
      ∀ j, j < S.rows k - 1 → IsJet R (S.rows m) (Fr.base C j) (Fr.proj (onSide W id if2c p)) fun r => t r j := by
  obtain ⟨t, h1, h2⟩ := L.base C _ m k hm hk hp
  refine ⟨fun r j => t r (j + 1), ?_, fun j hj => h2 j (by omega)⟩
  unfold sideTable
  rw [facePoint_spec, Res.ok_bind, h1, Res.ok_bind]

/-- the other side, as a map of the coordinates of the frame -/
noncomputable def across (Fr : Frame d) (W : Wrap) (id : Int) (if2c : Bool) (y : Fin d → ℝ) : Fin d → ℝ := Fr.proj (toOther W id if2c (Fr.lift y))

/-- the cases of `toOther` -/
theorem toOther_cases (W : Wrap) (id : Int) (if2c : Bool) :
    ((W.isPeriodic = false ∨ (isMain id = false ∧ Per.isDonor id = false)) ∧ ∀ p, toOther W id if2c p = p) ∨
    (W.isPeriodic = true ∧ ((if2c && isMain id) || (!if2c && Per.isDonor id)) = true ∧
      ∃ i b, Per.axisOf id = some i ∧ ∀ p, toOther W id if2c p = affine (W.P.rotation i) b p) ∨
    (W.isPeriodic = true ∧ ((if2c && isMain id) || (!if2c && Per.isDonor id)) = false ∧ ((if2c && Per.isDonor id) || (!if2c && isMain id)) = true ∧
      ∃ i b, Per.axisOf id = some i ∧ ∀ p, toOther W id if2c p = affine (W.P.rotation i)ᵀ b p) := by
  obtain ⟨hm, hd, hp⟩ := main_donor id
  unfold toOther
  cases hW : W.isPeriodic with
  | false => exact .inl ⟨.inl rfl, fun p => by simp⟩
  | true =>
    by_cases h1 : isMain id = true
    · have h1' := hm.mp h1
      have h2 : Per.isDonor id = false := by rw [Bool.eq_false_iff]; intro h; have := hd.mp h; omega
      obtain ⟨i, hi⟩ := axis_of id (.inl h1)
      obtain ⟨⟨b, hb⟩, ⟨b', hb'⟩⟩ := coord_affine W.P hi
      cases if2c with
      | true => exact .inr (.inl ⟨rfl, by simp [h1], i, b', hi, fun p => by simp [h1', hb']⟩)
      | false => exact .inr (.inr ⟨rfl, by simp [h2], by simp [h1], i, b, hi, fun p => by simp [h1', hb]⟩)
    · have h1' := mt hm.mpr h1
      have h1f : isMain id = false := by rw [Bool.eq_false_iff]; exact h1
      by_cases h2 : Per.isDonor id = true
      · have h2' := hd.mp h2
        obtain ⟨i, hi⟩ := axis_of id (.inr h2)
        obtain ⟨⟨b, hb⟩, ⟨b', hb'⟩⟩ := coord_affine W.P hi
        cases if2c with
        | true => exact .inr (.inr ⟨rfl, by simp [h1f], by simp [h2], i, b, hi, fun p => by simp [h1', h2', hb]⟩)
        | false => exact .inr (.inl ⟨rfl, by simp [h2], i, b', hi, fun p => by simp [h1', h2', hb']⟩)
      · have h2' := mt hd.mpr h2
        exact .inl ⟨.inr ⟨h1f, by rw [Bool.eq_false_iff]; exact h2⟩, fun p => by simp [h1', h2']⟩

/-- there and back -/
theorem toOther_back (W : Wrap) (id : Int) (hM : Moves W Fr id) (if2c : Bool) (p : Per.V3) : toOther W id (!if2c) (toOther W id if2c p) = p := by
  obtain ⟨hm, hd, hp⟩ := main_donor id
  cases hW : W.isPeriodic with
  | false => simp [toOther, hW]
  | true =>
    by_cases h : isMain id = true ∨ Per.isDonor id = true
    · obtain ⟨i, hi⟩ := axis_of id h
      have hr := Per.transCoord_back (P := W.P) hi (hM hW i hi).1 p
      obtain ⟨⟨b, hb⟩, ⟨b', hb'⟩⟩ := coord_affine W.P hi
      rw [hb, hb'] at hr
      have e1 : affine (W.P.rotation i) b' (affine (W.P.rotation i)ᵀ b p) = p := by
        have := hr.1
        simp only [Res.bind, hb'] at this
        exact Res.ok.inj this
      have e2 : affine (W.P.rotation i)ᵀ b (affine (W.P.rotation i) b' p) = p := by
        have := hr.2
        simp only [Res.bind, hb] at this
        exact Res.ok.inj this
      rcases h with h | h
      · have h1 := hm.mp h
        cases if2c <;> simp [toOther, hW, h1, hb, hb', e1, e2]
      · have h2 := hd.mp h
        have h1 : ¬(id = -1 ∨ id = -2 ∨ id = -3) := by omega
        cases if2c <;> simp [toOther, hW, h1, h2, hb, hb', e1, e2]
    · have h1 := mt hm.mpr fun hh => h (.inl hh)
      have h2 := mt hd.mpr fun hh => h (.inr hh)
      simp [toOther, hW, h1, h2]

/-- the place of a point of the face on the other side -/
theorem onSide_other (W : Wrap) (id : Int) (hM : Moves W Fr id) (if2c : Bool) (p : Per.V3) :
    toOther W id if2c (onSide W id if2c p) = onSide W id (!if2c) p := by
  cases if2c with
  | false => rfl
  | true => exact toOther_back W id hM false p

include L in
/-- the map between the frames is affine, and the tables of the other cell are turned into those of the function seen from this one -/
theorem across_spec (W : Wrap) (id : Int) (hM : Moves W Fr id) (if2c : Bool) :
    (∃ T b, across Fr W id if2c = affine T b) ∧
    (∀ p, across Fr W id if2c (Fr.proj p) = Fr.proj (toOther W id if2c p)) ∧
    ∀ {m n : Nat} (_ : m ≤ 3) {f : Nat → (Fin d → ℝ) → ℝ} (_ : ∀ j, Smooth (f j)) {x : Fin d → ℝ} {t : Tbl},
      (∀ j, j < n → IsJet R (S.rows m) (f j) (across Fr W id if2c x) fun r => t r j) →
      ∃ t', transOther S W id if2c (S.rows m) n t = .ok t' ∧
        ∀ j, j < n → IsJet R (S.rows m) (fun y => f j (across Fr W id if2c y)) x fun r => t' r j := by
  have turn : ∀ (D : Per.M3) (b : Per.V3), Fr.keeps D → (∀ p, toOther W id if2c p = affine D b p) →
      (across Fr W id if2c = affine (Fr.block D) (Fr.proj b)) ∧
      ∀ {m n : Nat} (_ : m ≤ 3) {f : Nat → (Fin d → ℝ) → ℝ} (_ : ∀ j, Smooth (f j)) {x : Fin d → ℝ} {t : Tbl},
      (∀ j, j < n → IsJet R (S.rows m) (f j) (across Fr W id if2c x) fun r => t r j) →
      ∃ t', eachColumn (S.lin D (S.rows m)) n t = .ok t' ∧
        ∀ j, j < n → IsJet R (S.rows m) (fun y => f j (across Fr W id if2c y)) x fun r => t' r j := by
    intro D b hk hp
    have e : across Fr W id if2c = affine (Fr.block D) (Fr.proj b) := by
      funext y
      unfold across
      rw [hp, L.affine_proj D hk, L.proj_lift]
    refine ⟨e, fun {m n} hm {f} hf {x t} ht => ?_⟩
    rw [e] at ht ⊢
    have key : ∀ j, ∃ c', j < n → S.lin D (S.rows m) (fun r => t r j) = .ok c' ∧
        IsJet R (S.rows m) (fun y => f j (affine (Fr.block D) (Fr.proj b) y)) x c' := fun j => by
      by_cases hj : j < n
      · obtain ⟨c', h1, h2⟩ := L.lin D (Fr.proj b) x (f j) (fun r => t r j) m hm (hf j) (ht j hj)
        exact ⟨c', fun _ => ⟨h1, h2⟩⟩
      · exact ⟨fun _ => 0, fun hh => absurd hh hj⟩
    choose c hc using key
    obtain ⟨t', h1, h2, _⟩ := eachColumn_spec (S.lin D (S.rows m)) n t c fun j hj => (hc j hj).1
    exact ⟨t', h1, fun j hj => by rw [h2 j hj]; exact (hc j hj).2⟩
  rcases toOther_cases W id if2c with ⟨hn, hp⟩ | ⟨hW, hc, i, b, hi, hp⟩ | ⟨hW, hc1, hc, i, b, hi, hp⟩
  · have e : across Fr W id if2c = fun y => y := by
      funext y; unfold across; rw [hp, L.proj_lift]
    refine ⟨⟨1, 0, ?_⟩, fun p => by rw [e, hp], fun {m n} hm {f} hf {x t} ht => ⟨t, ?_, ?_⟩⟩
    · rw [e]
      funext y a
      simp [affine, Matrix.one_apply]
    · unfold transOther
      rcases hn with h | ⟨h1, h2⟩
      · simp [h]
      · simp [h1, h2]
    · rw [e] at ht ⊢; exact ht
  · obtain ⟨e, ht⟩ := turn (W.P.rotation i) b (hM hW i hi).2 hp
    refine ⟨⟨_, _, e⟩, fun p => ?_, fun {m n} hm {f} hf {x t} h => ?_⟩
    · rw [e, hp, L.affine_proj _ (hM hW i hi).2]
    · obtain ⟨t', h1, h2⟩ := ht hm hf h
      refine ⟨t', ?_, h2⟩
      unfold transOther
      rw [if_pos hW, if_pos hc, Per.slot_ok hi]
      exact h1
  · obtain ⟨e, ht⟩ := turn (W.P.rotation i)ᵀ b (L.keeps_t _ (hM hW i hi).2) hp
    refine ⟨⟨_, _, e⟩, fun p => ?_, fun {m n} hm {f} hf {x t} h => ?_⟩
    · rw [e, hp, L.affine_proj _ (L.keeps_t _ (hM hW i hi).2)]
    · obtain ⟨t', h1, h2⟩ := ht hm hf h
      refine ⟨t', ?_, h2⟩
      unfold transOther
      rw [if_pos hW, if_neg (by rw [hc1]; simp), if_pos hc, Per.slot_ok hi]
      exact h1

end DNDSR.Rec
