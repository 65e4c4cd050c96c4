import Verif.Spec.BndRecord
import Verif.Props.ODE
import Verif.Props.Positivity

/-!
# C96: what is recorded at a boundary is that of the whole boundary
-/

namespace DNDSR.BRec

open DNDSR.IMap DNDSR.Dof

variable {n : Nat}

/-! ### integrals -/

theorem foldl_add_sum {M : Type} [AddCommMonoid M] (l : List M) (a : M) : l.foldl (· + ·) a = a + l.sum := by
  induction l generalizing a with
  | nil => simp
  | cons x xs ih => rw [List.foldl_cons, ih, List.sum_cons, add_assoc]

theorem integ_foldl (fs : List (Val n × ℝ)) (s : Integ n) :
    fs.foldl Integ.add s = ⟨s.v + (fs.map Prod.fst).sum, s.div + (fs.map Prod.snd).sum⟩ := by
  induction fs generalizing s with
  | nil => simp
  | cons x xs ih => rw [List.foldl_cons, ih]; simp [Integ.add, add_assoc]

/-- **C96** (integrals)  After a step every rank has, for a zone, the sum of what all faces of the zone on all ranks contribute.  The
divisor is too large by `1e-200` for every rank. -/
theorem integral_total (faces : List (List (Val n × ℝ))) :
    (integrate faces).length = faces.length ∧ ∀ s ∈ integrate faces, s.v = (faces.flatten.map Prod.fst).sum ∧
      s.div = (faces.flatten.map Prod.snd).sum + faces.length * (1 / 10 ^ 200) := by
  refine ⟨by simp [integrate, Integ.reduce], fun s hs => ?_⟩
  unfold integrate Integ.reduce at hs
  rw [List.mem_map] at hs
  obtain ⟨_, -, rfl⟩ := hs
  simp only [foldl_add_sum, zero_add, List.map_map]
  constructor
  · induction faces with
    | nil => simp
    | cons f fs ih =>
      rw [List.map_cons, List.sum_cons, ih, Function.comp_apply, integ_foldl, List.flatten_cons, List.map_append, List.sum_append]
      simp [Integ.reset]
  · induction faces with
    | nil => simp
    | cons f fs ih =>
      rw [List.map_cons, List.sum_cons, ih, Function.comp_apply, integ_foldl, List.flatten_cons, List.map_append, List.sum_append, List.length_cons, Nat.cast_succ]
      simp only [Integ.reset, tiny, ODE.verySmallReal]
      ring

/-! ### anchors -/

theorem anchor_foldl (ps : List (Val n × ℝ)) (s : Anchor n) :
    (ps.foldl Anchor.add s).dist ≤ s.dist ∧ (∀ q ∈ ps, (ps.foldl Anchor.add s).dist ≤ q.2) ∧
    (ps.foldl Anchor.add s = s ∨ ((ps.foldl Anchor.add s).val, (ps.foldl Anchor.add s).dist) ∈ ps) := by
  induction ps generalizing s with
  | nil => simp
  | cons x xs ih =>
    obtain ⟨h1, h2, h3⟩ := ih (s.add x)
    rw [List.foldl_cons]
    have h4 : (s.add x).dist ≤ s.dist ∧ (s.add x).dist ≤ x.2 := by
      unfold Anchor.add
      split
      · rename_i h; exact ⟨h.le, le_rfl⟩
      · rename_i h; exact ⟨le_rfl, not_lt.1 h⟩
    refine ⟨h1.trans h4.1, fun q hq => ?_, ?_⟩
    · rcases List.mem_cons.1 hq with rfl | hq
      · exact h1.trans h4.2
      · exact h2 q hq
    · rcases h3 with h3 | h3
      · rw [h3]
        unfold Anchor.add
        split
        · right; exact List.mem_cons_self
        · left; rfl
      · right; exact List.mem_cons_of_mem _ h3

theorem minloc_spec (ds : List ℝ) (r : Nat) (best : ℝ × Nat) :
    (minloc r best ds).1 ≤ best.1 ∧ (∀ x ∈ ds, (minloc r best ds).1 ≤ x) ∧
    (minloc r best ds = best ∨ ∃ k, ds[k]? = some (minloc r best ds).1 ∧ (minloc r best ds).2 = r + k) := by
  induction ds generalizing r best with
  | nil => simp [minloc]
  | cons x xs ih =>
    unfold minloc
    obtain ⟨h1, h2, h3⟩ := ih (r + 1) (if x < best.1 then (x, r) else best)
    have h4 : (if x < best.1 then (x, r) else best).1 ≤ best.1 ∧ (if x < best.1 then (x, r) else best).1 ≤ x := by
      split
      · rename_i h; exact ⟨h.le, le_rfl⟩
      · rename_i h; exact ⟨le_rfl, not_lt.1 h⟩
    refine ⟨h1.trans h4.1, fun q hq => ?_, ?_⟩
    · rcases List.mem_cons.1 hq with rfl | hq
      · exact h1.trans h4.2
      · exact h2 q hq
    · rcases h3 with h3 | ⟨k, h3, h5⟩
      · rw [h3]
        split
        · right; exact ⟨0, rfl, rfl⟩
        · left; rfl
      · right; exact ⟨k + 1, h3, by omega⟩

/-- **C96** (anchors)  After `updateBCAnchors` all ranks have the same anchor value, and if any point of the zone, on any rank, is nearer
than `3e200`, it is the state at a point of the zone that no other point, on any rank, is nearer than. -/
theorem anchor_nearest {old : List (Anchor n)} {pts : List (List (Val n × ℝ))} (hlen : old.length = pts.length) (hne : pts ≠ []) :
    ∃ rs v, updateAnchors old pts = .ok rs ∧ rs.length = pts.length ∧ (∀ s ∈ rs, s.val = v) ∧
      ((∃ q ∈ pts.flatten, q.2 < veryLarge) → ∃ q ∈ pts.flatten, q.1 = v ∧ ∀ q' ∈ pts.flatten, q.2 ≤ q'.2) := by
  unfold updateAnchors
  set loc := List.zipWith (fun (s : Anchor n) ps => ps.foldl Anchor.add s.reset) old pts with hloc
  have hl : loc.length = pts.length := by simp [hloc, hlen]
  obtain ⟨a, ls, hals⟩ := List.exists_cons_of_ne_nil (show loc ≠ [] from fun h => hne (List.length_eq_zero_iff.1 (by rw [← hl, h]; rfl)))
  obtain ⟨m1, m2, m3⟩ := minloc_spec (ls.map Anchor.dist) 1 (a.dist, 0)
  have hroot : ∃ b, loc[(minloc 1 (a.dist, 0) (ls.map Anchor.dist)).2]? = some b ∧ b.dist = (minloc 1 (a.dist, 0) (ls.map Anchor.dist)).1 := by
    rw [hals]
    rcases m3 with h | ⟨k, h, h'⟩
    · rw [h]; exact ⟨a, rfl, rfl⟩
    · rw [h']
      rw [List.getElem?_map, Option.map_eq_some_iff] at h
      obtain ⟨b, hb, hb'⟩ := h
      exact ⟨b, by rw [Nat.add_comm, List.getElem?_cons_succ]; exact hb, hb'⟩
  obtain ⟨b, hb, hbd⟩ := hroot
  have hmin : ∀ s ∈ loc, b.dist ≤ s.dist := by
    intro s hs
    rw [hbd]
    rw [hals] at hs
    rcases List.mem_cons.1 hs with rfl | hs
    · exact m1
    · exact m2 _ (List.mem_map_of_mem hs)
  have hpts : ∀ q ∈ pts.flatten, b.dist ≤ q.2 := by
    intro q hq
    obtain ⟨ps, hps, hq⟩ := List.mem_flatten.1 hq
    obtain ⟨k, hk⟩ := List.mem_iff_getElem?.1 hps
    have hk' : k < old.length := by rw [hlen]; exact (List.getElem?_eq_some_iff.1 hk).1
    refine le_trans (hmin (ps.foldl Anchor.add (old[k].reset)) (List.mem_iff_getElem?.2 ⟨k, ?_⟩)) ((anchor_foldl ps _).2.1 q hq)
    rw [hloc, List.getElem?_zipWith, hk, List.getElem?_eq_getElem hk']
  refine ⟨loc.map fun s => ⟨b.val, s.dist⟩, b.val, ?_, by simp [hl], ?_, ?_⟩
  · unfold Anchor.obtain
    rw [hals] at hb ⊢
    rw [show idx (a :: ls) 0 = .ok a from rfl, Res.ok_bind, List.tail_cons]
    simp only [(idx_ok_iff _ _ _).2 hb, Res.ok_bind]
  · intro s hs
    obtain ⟨_, -, rfl⟩ := List.mem_map.1 hs
    rfl
  · rintro ⟨q0, hq0, hlt⟩
    rw [hloc, List.getElem?_zipWith] at hb
    generalize (minloc 1 (a.dist, 0) (ls.map Anchor.dist)).2 = k at hb
    cases ho : old[k]? with
    | none => simp [ho] at hb
    | some o =>
      cases hp : pts[k]? with
      | none => simp [ho, hp] at hb
      | some ps =>
        simp only [ho, hp, Option.some.injEq] at hb
        obtain ⟨-, -, h3⟩ := anchor_foldl ps o.reset
        rw [hb] at h3
        rcases h3 with h3 | h3
        · have := hpts q0 hq0
          rw [h3] at this
          exact absurd hlt (not_lt.2 this)
        · exact ⟨_, List.mem_flatten.2 ⟨ps, List.mem_iff_getElem?.2 ⟨k, hp⟩, h3⟩, rfl, hpts⟩

/-! ### profiles -/

theorem share_eq {l r : ℝ} (h : l < r) (a b : ℝ) : share l r a b = max (min r b - max l a) 0 / (r - l) := by
  unfold share
  rw [Set.Icc_inter_Icc, Real.volume_Icc, Real.volume_Icc, ENNReal.toReal_ofReal', ENNReal.toReal_ofReal', max_eq_left (sub_nonneg.2 h.le)]

/-- node `i` -/
noncomputable abbrev nd (nodes : List ℝ) (i : Nat) : ℝ := nodes.getD i 0

theorem nd_of {nodes : List ℝ} {i : Nat} (h : i < nodes.length) : nodes[i]? = some (nd nodes i) := by
  simp [nd, List.getD, h]

theorem takeWhile_lt {p : ℝ → Bool} : ∀ {l : List ℝ} {i : Nat} {x : ℝ}, i < (l.takeWhile p).length → l[i]? = some x → p x = true
  | [], i, x, h, _ => by simp at h
  | y :: ys, i, x, h, hx => by
    rw [List.takeWhile_cons] at h
    split at h
    · cases i with
      | zero => simp at hx; rw [← hx]; assumption
      | succ i => exact takeWhile_lt (by simpa using h) (by simpa using hx)
    · simp at h

theorem takeWhile_ge {p : ℝ → Bool} (hp : ∀ x y, x < y → p y = true → p x = true) : ∀ {l : List ℝ} {i : Nat} {x : ℝ}, l.Pairwise (· < ·) →
    (l.takeWhile p).length ≤ i → l[i]? = some x → p x = false
  | [], i, x, _, _, h => by simp at h
  | y :: ys, i, x, hs, h, hx => by
    rw [List.pairwise_cons] at hs
    rw [List.takeWhile_cons] at h
    split at h
    · cases i with
      | zero => simp at h
      | succ i => exact takeWhile_ge hp hs.2 (by simpa using h) (by simpa using hx)
    · rename_i hy
      cases i with
      | zero => simp at hx; rw [← hx]; simpa using hy
      | succ i =>
        have : y < x := hs.1 x (List.mem_of_getElem? (by simpa using hx))
        by_contra hc
        exact hy (hp y x this (by simpa using hc))

/-- what one interval of the profile gets -/
noncomputable def gain (nodes : List ℝ) (u : Val n) (a l r : ℝ) (i : Nat) : Bin n :=
  (a * share l r (nd nodes i) (nd nodes (i + 1)), (a * share l r (nd nodes i) (nd nodes (i + 1))) • u)

theorem addBins_spec (nodes : List ℝ) (u : Val n) (a : ℝ) {l r : ℝ} (hlr : l < r) : ∀ (is : List Nat) (B : Nat → Bin n), is.Nodup → (∀ i ∈ is, i < nodes.length - 1) →
    addBins nodes u a l r is ((List.range (nodes.length - 1)).map B) =
      .ok ((List.range (nodes.length - 1)).map fun i => if i ∈ is then B i + gain nodes u a l r i else B i)
  | [], B, _, _ => by simp [addBins]
  | i :: is, B, hn, hi => by
    rw [List.nodup_cons] at hn
    have h1 := hi i (by simp)
    have e1 : addBin nodes u a l r ((List.range (nodes.length - 1)).map B) i =
        .ok ((List.range (nodes.length - 1)).map fun j => if j = i then B i + gain nodes u a l r i else B j) := by
      unfold addBin
      rw [(idx_ok_iff _ _ _).2 (nd_of (show i < nodes.length by omega)), Res.ok_bind, (idx_ok_iff _ _ _).2 (nd_of (show i + 1 < nodes.length by omega)), Res.ok_bind,
        (idx_ok_iff _ _ (B i)).2 (by simp [h1]), Res.ok_bind]
      refine congrArg Res.ok ?_
      refine List.ext_getElem ?_ fun j h2 h3 => ?_
      · simp
      simp only [List.length_set, List.length_map, List.length_range] at h2
      rw [List.getElem_set, List.getElem_map, List.getElem_map, List.getElem_range]
      by_cases hij : i = j
      · subst hij
        rw [if_pos rfl, if_pos rfl, gain, share_eq hlr]
        rfl
      · rw [if_neg hij, if_neg (fun h => hij h.symm)]
    rw [addBins, e1, Res.ok_bind, addBins_spec nodes u a hlr is _ hn.2 (fun j hj => hi j (by simp [hj]))]
    congr 1
    refine List.map_congr_left fun j _ => ?_
    by_cases hji : j = i
    · subst hji
      simp [hn.1]
    · simp [hji]

theorem share_zero {l r a b : ℝ} (h : l < r) (h' : b ≤ l ∨ r ≤ a) : share l r a b = 0 := by
  rw [share_eq h, max_eq_right, zero_div]
  rcases h' with h' | h'
  · have := min_le_right r b; have := le_max_left l a; linarith
  · have := min_le_left r b; have := le_max_right l a; linarith

theorem addInterval_spec {nodes : List ℝ} (h2 : 2 ≤ nodes.length) (hs : nodes.Pairwise (· < ·)) (u : Val n) (a : ℝ) {l r : ℝ} (hlr : l < r) (B : Nat → Bin n) :
    addInterval nodes ((List.range (nodes.length - 1)).map B) u a l r = .ok ((List.range (nodes.length - 1)).map fun i => B i + gain nodes u a l r i) := by
  unfold addInterval
  rw [if_neg (by rintro (h | h); omega; exact hlr.ne h)]
  simp only
  rw [addBins_spec nodes u a hlr _ B List.nodup_range' (by
    intro i hi
    rw [List.mem_range'_1] at hi
    omega)]
  congr 1
  refine List.map_congr_left fun i hi => ?_
  rw [List.mem_range] at hi
  split
  · rfl
  · rename_i hn
    rw [List.mem_range'_1] at hn
    have : share l r (nd nodes i) (nd nodes (i + 1)) = 0 := by
      refine share_zero hlr ?_
      by_cases hL : leftBin nodes l ≤ i
      · right
        have h3 : upperBound nodes r ≤ i := by omega
        have := takeWhile_ge (p := fun x => decide (x ≤ r)) (fun x y hxy hy => by
          simp only [decide_eq_true_eq] at hy ⊢; exact hxy.le.trans hy) hs h3 (nd_of (show i < nodes.length by omega))
        simp only [decide_eq_false_iff_not, not_le] at this
        exact this.le
      · left
        have h3 : i + 1 < lowerBound nodes l := by unfold leftBin at hL; omega
        have := takeWhile_lt (p := fun x => decide (x < l)) h3 (nd_of (show i + 1 < nodes.length by omega))
        simp only [decide_eq_true_eq] at this
        exact this.le
    rw [gain, this, mul_zero, zero_smul]
    simp

theorem foldl_min_key : ∀ (l : List ℝ) (a : ℝ), (l.foldl min a ≤ a) ∧ (∀ y ∈ l, l.foldl min a ≤ y) ∧ (l.foldl min a = a ∨ l.foldl min a ∈ l) := by
  intro l
  induction l with
  | nil => intro a; simp
  | cons y ys ih =>
    intro a
    obtain ⟨h1, h2, h3⟩ := ih (min a y)
    rw [List.foldl_cons]
    refine ⟨h1.trans (min_le_left _ _), fun z hz => ?_, ?_⟩
    · rcases List.mem_cons.1 hz with rfl | hz
      · exact h1.trans (min_le_right _ _)
      · exact h2 z hz
    · rcases h3 with h3 | h3
      · rw [h3]
        rcases min_choice a y with h | h <;> rw [h] <;> simp
      · right; exact List.mem_cons_of_mem _ h3

theorem foldl_min_least {l : List ℝ} {x : ℝ} (h : IsLeast {y | y ∈ l} x) {a : ℝ} (ha : x ≤ a) : l.foldl min a = x := by
  obtain ⟨h1, h2, h3⟩ := foldl_min_key l a
  have hx := h2 x h.1
  rcases h3 with h3 | h3
  · exact le_antisymm hx (by rw [h3]; exact ha)
  · exact le_antisymm hx (h.2 h3)

theorem foldl_max_key : ∀ (l : List ℝ) (a : ℝ), (a ≤ l.foldl max a) ∧ (∀ y ∈ l, y ≤ l.foldl max a) ∧ (l.foldl max a = a ∨ l.foldl max a ∈ l) := by
  intro l
  induction l with
  | nil => intro a; simp
  | cons y ys ih =>
    intro a
    obtain ⟨h1, h2, h3⟩ := ih (max a y)
    rw [List.foldl_cons]
    refine ⟨(le_max_left _ _).trans h1, fun z hz => ?_, ?_⟩
    · rcases List.mem_cons.1 hz with rfl | hz
      · exact (le_max_right _ _).trans h1
      · exact h2 z hz
    · rcases h3 with h3 | h3
      · rw [h3]
        rcases max_choice a y with h | h <;> rw [h] <;> simp
      · right; exact List.mem_cons_of_mem _ h3

theorem foldl_max_greatest {l : List ℝ} {x : ℝ} (h : IsGreatest {y | y ∈ l} x) {a : ℝ} (ha : a ≤ x) : l.foldl max a = x := by
  obtain ⟨h1, h2, h3⟩ := foldl_max_key l a
  have hx := h2 x h.1
  rcases h3 with h3 | h3
  · exact le_antisymm (by rw [h3]; exact ha) hx
  · exact le_antisymm (h.2 h3) hx

theorem addFaces_spec {nodes : List ℝ} (h2 : 2 ≤ nodes.length) (hs : nodes.Pairwise (· < ·)) (lo hi : BFace n → ℝ) : ∀ (fs : List (BFace n)) (B : Nat → Bin n),
    (∀ f ∈ fs, Spans f (lo f) (hi f)) → addFaces nodes fs ((List.range (nodes.length - 1)).map B) =
      .ok ((List.range (nodes.length - 1)).map fun i => B i + (fs.map fun f => gain nodes f.val f.area (lo f) (hi f) i).sum)
  | [], B, _ => by simp [addFaces]
  | f :: fs, B, h => by
    have hf := h f (by simp)
    have e1 : f.radii.foldl min veryLarge = lo f := foldl_min_least hf.least ((le_abs_self _).trans (hf.small _ hf.least.1))
    have e2 : f.radii.foldl max (-veryLarge) = hi f := foldl_max_greatest hf.greatest (neg_le_of_abs_le (hf.small _ hf.greatest.1))
    rw [addFaces, e1, e2, addInterval_spec h2 hs _ _ hf.proper, Res.ok_bind, addFaces_spec h2 hs lo hi fs _ (fun g hg => h g (by simp [hg]))]
    congr 1
    refine List.map_congr_left fun i _ => ?_
    rw [List.map_cons, List.sum_cons, add_assoc]

theorem sumBins_spec (size : Nat) : ∀ (Bs : List (Nat → Bin n)) (C : Nat → Bin n),
    (Bs.map fun B => (List.range size).map B).foldl (fun s b => List.zipWith (· + ·) s b) ((List.range size).map C) =
      (List.range size).map fun i => C i + (Bs.map fun B => B i).sum
  | [], C => by simp
  | B :: Bs, C => by
    rw [List.map_cons, List.foldl_cons, List.zipWith_map, List.zipWith_self, sumBins_spec size Bs]
    refine List.map_congr_left fun i _ => ?_
    rw [List.map_cons, List.sum_cons, add_assoc]

theorem clamp {l r a b : ℝ} (h : l < r) (hab : a < b) : max l (min r a) + max (min r b - max l a) 0 = max l (min r b) := by
  simp only [max_def, min_def]
  split_ifs <;> linarith

/-- the parts of an interval within the nodes make up all of it -/
theorem share_sum {nodes : List ℝ} {x0 x1 : ℝ} (h : Ladder nodes x0 x1) {l r : ℝ} (hlr : l < r) (h0 : x0 ≤ l) (h1 : r ≤ x1) :
    ((List.range (nodes.length - 1)).map fun i => share l r (nd nodes i) (nd nodes (i + 1))).sum = 1 := by
  have hlt : ∀ i, i + 1 < nodes.length → nd nodes i < nd nodes (i + 1) := by
    intro i hi
    have := List.pairwise_iff_getElem.1 h.increasing i (i + 1) (by omega) hi (by omega)
    simpa [nd, List.getD, hi, show i < nodes.length by omega] using this
  have key : ∀ k, k < nodes.length → ((List.range k).map fun i => share l r (nd nodes i) (nd nodes (i + 1))).sum =
      (max l (min r (nd nodes k)) - max l (min r (nd nodes 0))) / (r - l) := by
    intro k
    induction k with
    | zero => intro _; simp
    | succ k ih =>
      intro hk
      rw [List.range_succ, List.map_append, List.sum_append, ih (by omega), List.map_singleton, List.sum_singleton, share_eq hlr, ← add_div]
      congr 1
      have := hlt k hk
      have := clamp hlr this
      linarith
  have hh := h.two
  rw [key (nodes.length - 1) (by omega)]
  have e0 : nd nodes 0 = x0 := by
    have := h.first
    rw [List.head?_eq_getElem?] at this
    simp [nd, List.getD, this]
  have e1 : nd nodes (nodes.length - 1) = x1 := by
    have := h.last
    rw [List.getLast?_eq_getElem?] at this
    simp [nd, List.getD, this]
  rw [e0, e1, min_eq_left h1, max_eq_right hlr.le, max_eq_left ((min_le_right _ _).trans h0), div_self (sub_pos.2 hlr).ne']

theorem tanh_mono {x y : ℝ} (h : x < y) : Real.tanh x < Real.tanh y := by
  rw [Real.tanh_eq_sinh_div_cosh, Real.tanh_eq_sinh_div_cosh, div_lt_div_iff₀ (Real.cosh_pos x) (Real.cosh_pos y)]
  have := Real.sinh_pos_iff.2 (sub_pos.2 h)
  rw [Real.sinh_sub] at this
  linarith

theorem linSpaced_ladder {size : Nat} (hs : 0 < size) {x0 x1 : ℝ} (h : x0 < x1) : Ladder (linSpaced size x0 x1) x0 x1 := by
  have hp : (0 : ℝ) < size := by exact_mod_cast hs
  have hst : 0 < (x1 - x0) / size := div_pos (sub_pos.2 h) hp
  refine ⟨by simp [linSpaced]; omega, ?_, ?_, ?_⟩
  · simp [linSpaced, List.head?_eq_getElem?]
  · rw [List.getLast?_eq_getElem?]
    simp only [linSpaced, List.length_map, List.length_range, Nat.add_sub_cancel, List.getElem?_map]
    rw [List.getElem?_range (by omega), Option.map_some]
    congr 1
    field_simp
    ring
  · unfold linSpaced
    rw [List.pairwise_map]
    refine List.pairwise_lt_range.imp fun {a b} hab => ?_
    have : (a : ℝ) < b := by exact_mod_cast hab
    have := mul_lt_mul_of_pos_right this hst
    linarith

theorem tanhSpaced_ladder {size : Nat} {x0 x1 d0 : ℝ} {nodes : List ℝ} (h : tanhSpaced size x0 x1 d0 = .ok nodes) :
    Ladder nodes x0 x1 ∧ nodes.length = size + 1 := by
  unfold tanhSpaced at h
  by_cases h0 : x0 < x1 ∧ 0 < size
  · rw [if_neg (not_not.2 h0)] at h
    split at h
    · cases h
      exact ⟨linSpaced_ladder h0.2 h0.1, by simp [linSpaced]⟩
    · rw [Res.bind_ok_iff] at h
      obtain ⟨t, h1, h2⟩ := h
      have ht : 0 < t := by
        unfold ODE.bisectSolveLower at h1
        simp only at h1
        rw [Res.bind_ok_iff] at h1
        obtain ⟨_, a1, a2⟩ := h1
        rw [Res.assert_ok_iff] at a1
        simp only [Res.pure_eq, Res.ok.injEq] at a2
        have := (ODE.bisectGo_spec (steep size x0 x1 d0) (steep size x0 x1 d0 (1 / 10 ^ 10)) 0 (20 : Int).toNat _ _ a1.1 a1.2.1 a1.2.2).1
        rw [a2] at this
        exact lt_of_lt_of_le (by norm_num) this
      have hM : 0 < Real.tanh t := by
        rw [← Real.tanh_zero]; exact tanh_mono ht
      have hL := linSpaced_ladder h0.2 (show -t < t by linarith)
      simp only [Res.ok.injEq] at h2
      have hf : StrictMono fun x : ℝ => (Real.tanh x + Real.tanh t) / (2 * Real.tanh t) * (x1 - x0) + x0 := by
        intro x y hxy
        have := tanh_mono hxy
        have hd : 0 < 2 * Real.tanh t := by linarith
        have := div_lt_div_of_pos_right (show Real.tanh x + Real.tanh t < Real.tanh y + Real.tanh t by linarith) hd
        have := mul_lt_mul_of_pos_right this (sub_pos.2 h0.1)
        simp only
        linarith
      have f0 : (Real.tanh (-t) + Real.tanh t) / (2 * Real.tanh t) * (x1 - x0) + x0 = x0 := by
        rw [Real.tanh_neg]; simp
      have f1 : (Real.tanh t + Real.tanh t) / (2 * Real.tanh t) * (x1 - x0) + x0 = x1 := by
        rw [← two_mul, div_self (by linarith)]; ring
      have hlen : (linSpaced size (-t) t).length = size + 1 := by simp [linSpaced]
      have e0 : (linSpaced size (-t) t)[0]? = some (-t) := by rw [← List.head?_eq_getElem?]; exact hL.first
      have e1 : (linSpaced size (-t) t)[size]? = some t := by
        have := hL.last
        rw [List.getLast?_eq_getElem?, hlen] at this
        exact this
      have hd : nodes = (linSpaced size (-t) t).map fun x => (Real.tanh x + Real.tanh t) / (2 * Real.tanh t) * (x1 - x0) + x0 := by
        rw [← h2]
        refine List.ext_getElem? fun i => ?_
        rw [List.getElem?_set, List.getElem?_set]
        by_cases c1 : size = i
        · subst c1
          rw [if_pos rfl, List.getElem?_map, e1, Option.map_some, f1]
          simp [hlen]
        · rw [if_neg c1]
          by_cases c0 : 0 = i
          · subst c0
            rw [if_pos rfl, List.getElem?_map, e0, Option.map_some, f0]
            simp [hlen]
          · rw [if_neg c0]
      refine ⟨⟨by rw [hd, List.length_map, hlen]; omega, ?_, ?_, ?_⟩, by rw [hd, List.length_map, hlen]⟩
      · rw [hd, List.head?_map, hL.first, Option.map_some, f0]
      · rw [hd, List.getLast?_map, hL.last, Option.map_some, f1]
      · rw [hd, List.pairwise_map]
        exact hL.increasing.imp fun {a b} hab => hf hab
  · rw [if_pos h0] at h; cases h

theorem extent_min {faces : List (List (BFace n))} {x0 : ℝ} (h : IsLeast {x | ∃ f ∈ faces.flatten, x ∈ f.radii} x0) (hs : x0 ≤ veryLarge) :
    allMin (faces.map fun fs => (fs.flatMap (·.radii)).foldl min veryLarge) = x0 := by
  have hk : ∀ ys : List ℝ, ys ≠ [] → (∀ y ∈ ys, allMin ys ≤ y) ∧ allMin ys ∈ ys := by
    intro ys hys
    obtain ⟨a, l, rfl⟩ := List.exists_cons_of_ne_nil hys
    obtain ⟨k1, k2, k3⟩ := foldl_min_key l a
    refine ⟨fun y hy => ?_, ?_⟩
    · rcases List.mem_cons.1 hy with rfl | hy
      · exact k1
      · exact k2 y hy
    · rcases k3 with k3 | k3
      · simp [allMin, k3]
      · exact List.mem_cons_of_mem _ k3
  obtain ⟨f, hf, hx⟩ := h.1
  obtain ⟨fs, hfs, hf⟩ := List.mem_flatten.1 hf
  obtain ⟨k1, k2⟩ := hk (faces.map fun fs => (fs.flatMap (·.radii)).foldl min veryLarge) (by
    intro h0; rw [List.map_eq_nil_iff] at h0; rw [h0] at hfs; simp at hfs)
  refine le_antisymm ((k1 _ (List.mem_map_of_mem hfs)).trans ((foldl_min_key _ _).2.1 x0 (List.mem_flatMap.2 ⟨f, hf, hx⟩))) ?_
  obtain ⟨gs, hgs, hg⟩ := List.mem_map.1 k2
  rw [← hg]
  rcases (foldl_min_key (gs.flatMap (·.radii)) veryLarge).2.2 with h3 | h3
  · rw [h3]; exact hs
  · obtain ⟨g, hg1, hg2⟩ := List.mem_flatMap.1 h3
    exact h.2 ⟨g, List.mem_flatten.2 ⟨gs, hgs, hg1⟩, hg2⟩

theorem extent_max {faces : List (List (BFace n))} {x1 : ℝ} (h : IsGreatest {x | ∃ f ∈ faces.flatten, x ∈ f.radii} x1) (hs : -veryLarge ≤ x1) :
    allMax (faces.map fun fs => (fs.flatMap (·.radii)).foldl max (-veryLarge)) = x1 := by
  have hk : ∀ ys : List ℝ, ys ≠ [] → (∀ y ∈ ys, y ≤ allMax ys) ∧ allMax ys ∈ ys := by
    intro ys hys
    obtain ⟨a, l, rfl⟩ := List.exists_cons_of_ne_nil hys
    obtain ⟨k1, k2, k3⟩ := foldl_max_key l a
    refine ⟨fun y hy => ?_, ?_⟩
    · rcases List.mem_cons.1 hy with rfl | hy
      · exact k1
      · exact k2 y hy
    · rcases k3 with k3 | k3
      · simp [allMax, k3]
      · exact List.mem_cons_of_mem _ k3
  obtain ⟨f, hf, hx⟩ := h.1
  obtain ⟨fs, hfs, hf⟩ := List.mem_flatten.1 hf
  obtain ⟨k1, k2⟩ := hk (faces.map fun fs => (fs.flatMap (·.radii)).foldl max (-veryLarge)) (by
    intro h0; rw [List.map_eq_nil_iff] at h0; rw [h0] at hfs; simp at hfs)
  refine le_antisymm ?_ (((foldl_max_key _ _).2.1 x1 (List.mem_flatMap.2 ⟨f, hf, hx⟩)).trans (k1 _ (List.mem_map_of_mem hfs)))
  obtain ⟨gs, hgs, hg⟩ := List.mem_map.1 k2
  rw [← hg]
  rcases (foldl_max_key (gs.flatMap (·.radii)) (-veryLarge)).2.2 with h3 | h3
  · rw [h3]; exact hs
  · obtain ⟨g, hg1, hg2⟩ := List.mem_flatMap.1 h3
    exact h.2 ⟨g, List.mem_flatten.2 ⟨gs, hgs, hg1⟩, hg2⟩

theorem exists_least {l : List ℝ} (h : l ≠ []) : ∃ x, IsLeast {y | y ∈ l} x := by
  obtain ⟨a, t, rfl⟩ := List.exists_cons_of_ne_nil h
  obtain ⟨k1, k2, k3⟩ := foldl_min_key t a
  refine ⟨t.foldl min a, ?_, ?_⟩
  · rcases k3 with k3 | k3
    · rw [k3]; exact List.mem_cons_self
    · exact List.mem_cons_of_mem _ k3
  · intro y hy
    rcases List.mem_cons.1 hy with rfl | hy
    · exact k1
    · exact k2 y hy

theorem exists_greatest {l : List ℝ} (h : l ≠ []) : ∃ x, IsGreatest {y | y ∈ l} x := by
  obtain ⟨a, t, rfl⟩ := List.exists_cons_of_ne_nil h
  obtain ⟨k1, k2, k3⟩ := foldl_max_key t a
  refine ⟨t.foldl max a, ?_, ?_⟩
  · rcases k3 with k3 | k3
    · rw [k3]; exact List.mem_cons_self
    · exact List.mem_cons_of_mem _ k3
  · intro y hy
    rcases List.mem_cons.1 hy with rfl | hy
    · exact k1
    · exact k2 y hy

theorem sum_comm_range {M : Type} [AddCommMonoid M] {α : Type} (g : α → Nat → M) (k : Nat) : ∀ l : List α,
    ((List.range k).map fun i => (l.map fun f => g f i).sum).sum = (l.map fun f => ((List.range k).map fun i => g f i).sum).sum
  | [] => by simp
  | f :: l => by
    simp only [List.map_cons, List.sum_cons, List.sum_map_add]
    rw [sum_comm_range g k l]

/-- **C96** (profiles)  The faces of a zone, spread over the ranks in any way, each reaching over some radii, give all ranks the same profile.
Its nodes increase from the least to the greatest radius of the zone.  Each interval has the areas of all faces, and their values times
area, in proportion to the part of the radii of the face that lies in it; nothing is lost or counted twice.  `hnodes` holds always for
evenly spaced nodes (`nodes_uniform`). -/
theorem profile_total {nDiv : Int} {divd0 : Option ℝ} {faces : List (List (BFace n))} {lo hi : BFace n → ℝ} {nodes : List ℝ}
    (hsp : ∀ f ∈ faces.flatten, Spans f (lo f) (hi f)) (hne : faces.flatten ≠ []) (hnodes : makeNodes nDiv divd0 faces = .ok nodes) :
    ∃ x0 x1 bins, IsLeast {x | ∃ f ∈ faces.flatten, x ∈ f.radii} x0 ∧ IsGreatest {x | ∃ f ∈ faces.flatten, x ∈ f.radii} x1 ∧ Ladder nodes x0 x1 ∧
      nodes.length = (max nDiv 10).toNat + 1 ∧
      updateProfiles nDiv divd0 faces = .ok (faces.map fun _ => (nodes, bins)) ∧ bins.length + 1 = nodes.length ∧
      (∀ i a b, nodes[i]? = some a → nodes[i + 1]? = some b → bins[i]? = some
        ((faces.flatten.map fun f => f.area * share (lo f) (hi f) a b).sum, (faces.flatten.map fun f => (f.area * share (lo f) (hi f) a b) • f.val).sum)) ∧
      (bins.map Prod.fst).sum = (faces.flatten.map fun f => f.area).sum ∧ (bins.map Prod.snd).sum = (faces.flatten.map fun f => f.area • f.val).sum := by
  have hr : faces.flatten.flatMap (·.radii) ≠ [] := by
    intro h
    obtain ⟨f, fs, hf⟩ := List.exists_cons_of_ne_nil hne
    have hf' : f ∈ faces.flatten := by rw [hf]; simp
    have := List.mem_flatMap.2 ⟨f, hf', (hsp f hf').least.1⟩
    rw [h] at this
    simp at this
  have hset : ∀ x, x ∈ faces.flatten.flatMap (·.radii) ↔ ∃ f ∈ faces.flatten, x ∈ f.radii := fun x => List.mem_flatMap
  obtain ⟨x0, h0⟩ := exists_least hr
  obtain ⟨x1, h1⟩ := exists_greatest hr
  simp only [hset] at h0 h1
  have hx : x0 < x1 := by
    obtain ⟨f, fs, hf⟩ := List.exists_cons_of_ne_nil hne
    have hf' : f ∈ faces.flatten := by rw [hf]; simp
    have := hsp f hf'
    exact lt_of_le_of_lt (h0.2 ⟨f, hf', this.least.1⟩) (lt_of_lt_of_le this.proper (h1.2 ⟨f, hf', this.greatest.1⟩))
  have e0 : allMin (faces.map fun fs => (fs.flatMap (·.radii)).foldl min veryLarge) = x0 := by
    obtain ⟨f, hf, hfx⟩ := h0.1
    exact extent_min h0 ((le_abs_self _).trans ((hsp f hf).small _ hfx))
  have e1 : allMax (faces.map fun fs => (fs.flatMap (·.radii)).foldl max (-veryLarge)) = x1 := by
    obtain ⟨f, hf, hfx⟩ := h1.1
    exact extent_max h1 (neg_le_of_abs_le ((hsp f hf).small _ hfx))
  have hL : Ladder nodes x0 x1 ∧ nodes.length = (max nDiv 10).toNat + 1 := by
    unfold makeNodes at hnodes
    simp only [e0, e1] at hnodes
    cases divd0 with
    | none =>
      simp only [Res.ok.injEq] at hnodes
      rw [← hnodes]
      exact ⟨linSpaced_ladder (by omega) hx, by simp [linSpaced]⟩
    | some d0 => exact tanhSpaced_ladder hnodes
  have hown : forRanks (fun _ fs => addFaces nodes fs (List.replicate (nodes.length - 1) 0)) 0 faces =
      .ok (faces.map fun fs => (List.range (nodes.length - 1)).map fun i => (fs.map fun f => gain nodes f.val f.area (lo f) (hi f) i).sum) := by
    rw [forRanks_ok]
    refine ⟨by simp, fun i fs hfs => ⟨_, by rw [List.getElem?_map, hfs]; rfl, ?_⟩⟩
    rw [show List.replicate (nodes.length - 1) (0 : Bin n) = (List.range (nodes.length - 1)).map fun _ => 0 by simp,
      addFaces_spec hL.1.two hL.1.increasing lo hi fs _ (fun f hf => hsp f (List.mem_flatten.2 ⟨fs, List.mem_of_getElem? hfs, hf⟩))]
    simp
  have hsum : sumBins (nodes.length - 1) (faces.map fun fs => (List.range (nodes.length - 1)).map fun i => (fs.map fun f => gain nodes f.val f.area (lo f) (hi f) i).sum) =
      (List.range (nodes.length - 1)).map fun i => (faces.flatten.map fun f => gain nodes f.val f.area (lo f) (hi f) i).sum := by
    have := sumBins_spec (n := n) (nodes.length - 1) (faces.map fun fs i => (fs.map fun f => gain nodes f.val f.area (lo f) (hi f) i).sum) (fun _ => 0)
    rw [List.map_map] at this
    unfold sumBins
    rw [show List.replicate (nodes.length - 1) (0 : Bin n) = (List.range (nodes.length - 1)).map fun _ => 0 by simp]
    refine (this.trans ?_)
    refine List.map_congr_left fun i _ => ?_
    rw [zero_add, List.map_map, List.map_flatten, List.sum_flatten, List.map_map]
    rfl
  have hin : ∀ f ∈ faces.flatten, ((List.range (nodes.length - 1)).map fun i => share (lo f) (hi f) (nd nodes i) (nd nodes (i + 1))).sum = 1 := fun f hf =>
    share_sum hL.1 (hsp f hf).proper (h0.2 ⟨f, hf, (hsp f hf).least.1⟩) (h1.2 ⟨f, hf, (hsp f hf).greatest.1⟩)
  refine ⟨x0, x1, _, h0, h1, hL.1, hL.2, by unfold updateProfiles; rw [hnodes, Res.ok_bind, hown, Res.ok_bind, hsum], by
    rw [List.length_map, List.length_range]; have := hL.1.two; omega, ?_, ?_, ?_⟩
  · intro i a b ha hb
    have hi' : i + 1 < nodes.length := (List.getElem?_eq_some_iff.1 hb).1
    have ea : nd nodes i = a := by simp [nd, List.getD, ha]
    have eb : nd nodes (i + 1) = b := by simp [nd, List.getD, hb]
    rw [List.getElem?_map, List.getElem?_range (by omega), Option.map_some]
    congr 1
    have : ∀ l : List (BFace n), (l.map fun f => gain nodes f.val f.area (lo f) (hi f) i).sum =
        ((l.map fun f => f.area * share (lo f) (hi f) a b).sum, (l.map fun f => (f.area * share (lo f) (hi f) a b) • f.val).sum) := by
      intro l
      induction l with
      | nil => rfl
      | cons f l ih =>
        simp only [List.map_cons, List.sum_cons]
        rw [ih, gain, ea, eb, Prod.mk_add_mk]
    exact this _
  · rw [List.map_map]
    have : ∀ i, (Prod.fst ∘ fun i => (faces.flatten.map fun f => gain nodes f.val f.area (lo f) (hi f) i).sum) i =
        (faces.flatten.map fun f => f.area * share (lo f) (hi f) (nd nodes i) (nd nodes (i + 1))).sum := by
      intro i
      generalize faces.flatten = l
      simp only [Function.comp_apply]
      induction l with
      | nil => rfl
      | cons f l ih => rw [List.map_cons, List.sum_cons, Prod.fst_add, ih, List.map_cons, List.sum_cons]; rfl
    rw [funext this, sum_comm_range]
    congr 1
    refine List.map_congr_left fun f hf => ?_
    rw [List.sum_map_mul_left, hin f hf, mul_one]
  · rw [List.map_map]
    have : ∀ i, (Prod.snd ∘ fun i => (faces.flatten.map fun f => gain nodes f.val f.area (lo f) (hi f) i).sum) i =
        (faces.flatten.map fun f => (f.area * share (lo f) (hi f) (nd nodes i) (nd nodes (i + 1))) • f.val).sum := by
      intro i
      generalize faces.flatten = l
      simp only [Function.comp_apply]
      induction l with
      | nil => rfl
      | cons f l ih => rw [List.map_cons, List.sum_cons, Prod.snd_add, ih, List.map_cons, List.sum_cons]; rfl
    rw [funext this, sum_comm_range]
    congr 1
    refine List.map_congr_left fun f hf => ?_
    have : ∀ l : List Nat, (l.map fun i => (f.area * share (lo f) (hi f) (nd nodes i) (nd nodes (i + 1))) • f.val).sum =
        (f.area * (l.map fun i => share (lo f) (hi f) (nd nodes i) (nd nodes (i + 1))).sum) • f.val := by
      intro l
      induction l with
      | nil => simp
      | cons i l ih => rw [List.map_cons, List.sum_cons, ih, List.map_cons, List.sum_cons, mul_add, add_smul]
    rw [this, hin f hf, mul_one]

theorem nodes_uniform (nDiv : Int) (faces : List (List (BFace n))) : ∃ nodes, makeNodes nDiv none faces = .ok nodes := ⟨_, rfl⟩

theorem get_spec {nodes : List ℝ} {bins : List (Bin n)} (hl : bins.length + 1 = nodes.length) {i : Nat} (hi : i < bins.length) :
    get nodes bins i = .ok (mean bins[i]) := by
  unfold get
  rw [if_pos (by omega), (idx_ok_iff _ _ bins[i]).2 (List.getElem?_eq_getElem hi), Res.ok_bind]
  rfl

theorem getPlain_between {nodes : List ℝ} {bins : List (Bin n)} (h2 : 2 ≤ nodes.length) (hl : bins.length + 1 = nodes.length) {k : Fin n} {A B : ℝ}
    (h : ∀ b ∈ bins, A ≤ mean b k ∧ mean b k ≤ B) (x : ℝ) : ∃ v, getPlain nodes bins x = .ok v ∧ A ≤ v k ∧ v k ≤ B := by
  have hc : leftBin nodes x < bins.length := by unfold leftBin; omega
  have ha : leftBin nodes x - 1 < bins.length := by omega
  have hb : min (leftBin nodes x + 1) (nodes.length - 1 - 1) < bins.length := by omega
  unfold getPlain
  simp only
  rw [(idx_ok_iff _ _ _).2 (nd_of (show leftBin nodes x < nodes.length by omega)), Res.ok_bind, (idx_ok_iff _ _ _).2 (nd_of (show leftBin nodes x + 1 < nodes.length by omega)),
    Res.ok_bind, get_spec hl ha, Res.ok_bind, get_spec hl hb, Res.ok_bind, get_spec hl hc, Res.ok_bind]
  refine ⟨_, rfl, ?_⟩
  obtain ⟨a1, a2⟩ := h _ (List.getElem_mem ha)
  obtain ⟨b1, b2⟩ := h _ (List.getElem_mem hb)
  obtain ⟨c1, c2⟩ := h _ (List.getElem_mem hc)
  have t0 : 0 ≤ max (min ((x - nd nodes (leftBin nodes x)) / (nd nodes (leftBin nodes x + 1) - nd nodes (leftBin nodes x) + tiny)) 1) 0 := le_max_right _ _
  have t1 : max (min ((x - nd nodes (leftBin nodes x)) / (nd nodes (leftBin nodes x + 1) - nd nodes (leftBin nodes x) + tiny)) 1) 0 ≤ 1 :=
    max_le (min_le_right _ _) zero_le_one
  generalize max (min ((x - nd nodes (leftBin nodes x)) / (nd nodes (leftBin nodes x + 1) - nd nodes (leftBin nodes x) + tiny)) 1) 0 = t at *
  simp only [Pi.add_apply, Pi.smul_apply, smul_eq_mul]
  generalize mean bins[leftBin nodes x - 1] k = p at *
  generalize mean bins[min (leftBin nodes x + 1) (nodes.length - 1 - 1)] k = q at *
  generalize mean bins[leftBin nodes x] k = r at *
  constructor
  · nlinarith [mul_nonneg t0 (show 0 ≤ 1 / 2 * (q + r) - A by linarith), mul_nonneg (sub_nonneg.2 t1) (show 0 ≤ 1 / 2 * (p + r) - A by linarith)]
  · nlinarith [mul_nonneg t0 (show 0 ≤ B - 1 / 2 * (q + r) by linarith), mul_nonneg (sub_nonneg.2 t1) (show 0 ≤ B - 1 / 2 * (p + r) by linarith)]

theorem share_nonneg (l r a b : ℝ) : 0 ≤ share l r a b := div_nonneg ENNReal.toReal_nonneg ENNReal.toReal_nonneg

/-- **C96** (values of profiles)  Whatever radius a rank asks for, inside or outside the zone, it gets a value, and the same as any other rank. Each
component of it lies between the least and the greatest value of the faces of the zone, or zero (for intervals that no face reaches). -/
theorem profile_value {nDiv : Int} {divd0 : Option ℝ} {faces : List (List (BFace n))} {lo hi : BFace n → ℝ} {nodes : List ℝ}
    (hsp : ∀ f ∈ faces.flatten, Spans f (lo f) (hi f)) (hne : faces.flatten ≠ []) (hnodes : makeNodes nDiv divd0 faces = .ok nodes)
    {k : Fin n} {A B : ℝ} (hA : A ≤ 0) (hB : 0 ≤ B) (hf : ∀ f ∈ faces.flatten, 0 ≤ f.area ∧ A ≤ f.val k ∧ f.val k ≤ B) (x : ℝ) :
    ∃ v out, updateProfiles nDiv divd0 faces = .ok out ∧ out.length = faces.length ∧ (∀ p ∈ out, getPlain p.1 p.2 x = .ok v) ∧ A ≤ v k ∧ v k ≤ B := by
  obtain ⟨x0, x1, bins, -, -, hL, -, hu, hl, hb, -, -⟩ := profile_total hsp hne hnodes
  obtain ⟨v, h1, h2, h3⟩ := getPlain_between (k := k) (A := A) (B := B) hL.two hl (by
    intro b hbm
    obtain ⟨i, hib, rfl⟩ := List.mem_iff_getElem.1 hbm
    have hbi := hb i _ _ (nd_of (show i < nodes.length by omega)) (nd_of (show i + 1 < nodes.length by omega))
    rw [List.getElem?_eq_getElem hib, Option.some.injEq] at hbi
    have key : ∀ l : List (BFace n), (∀ f ∈ l, f ∈ faces.flatten) → 0 ≤ (l.map fun f => f.area * share (lo f) (hi f) (nd nodes i) (nd nodes (i + 1))).sum ∧
        A * (l.map fun f => f.area * share (lo f) (hi f) (nd nodes i) (nd nodes (i + 1))).sum ≤
          (l.map fun f => (f.area * share (lo f) (hi f) (nd nodes i) (nd nodes (i + 1))) • f.val).sum k ∧
        (l.map fun f => (f.area * share (lo f) (hi f) (nd nodes i) (nd nodes (i + 1))) • f.val).sum k ≤
          B * (l.map fun f => f.area * share (lo f) (hi f) (nd nodes i) (nd nodes (i + 1))).sum := by
      intro l
      induction l with
      | nil => intro _; simp
      | cons f l ih =>
        intro hm
        obtain ⟨i1, i2, i3⟩ := ih (fun g hg => hm g (by simp [hg]))
        obtain ⟨f1, f2, f3⟩ := hf f (hm f (by simp))
        have w := mul_nonneg f1 (share_nonneg (lo f) (hi f) (nd nodes i) (nd nodes (i + 1)))
        simp only [List.map_cons, List.sum_cons, Pi.add_apply, Pi.smul_apply, smul_eq_mul]
        refine ⟨add_nonneg w i1, ?_, ?_⟩
        · nlinarith [mul_le_mul_of_nonneg_left f2 w]
        · nlinarith [mul_le_mul_of_nonneg_left f3 w]
    obtain ⟨k1, k2, k3⟩ := key faces.flatten (fun _ h => h)
    have e1 : bins[i].1 = _ := congrArg Prod.fst hbi
    have e2 : bins[i].2 = _ := congrArg Prod.snd hbi
    simp only at e1 e2
    rw [← e1] at k1 k2 k3
    rw [← e2] at k2 k3
    have hd : 0 < bins[i].1 + 1 / 10 ^ 200 := by positivity
    simp only [mean, Pi.smul_apply, smul_eq_mul]
    rw [inv_mul_eq_div, le_div_iff₀ hd, div_le_iff₀ hd]
    have ht : (0 : ℝ) ≤ 1 / 10 ^ 200 := by positivity
    constructor
    · nlinarith [mul_nonneg (neg_nonneg.2 hA) ht]
    · nlinarith [mul_nonneg hB ht]) x
  refine ⟨v, _, hu, by simp, fun p hp => ?_, h2, h3⟩
  obtain ⟨_, -, rfl⟩ := List.mem_map.1 hp
  exact h1

/-- **C96** (values between nodes)  Between two nodes the value goes from the mean of the intervals that meet at the lower node to that of the intervals
that meet at the upper one, in proportion to the distance. At an end of the zone the last interval stands for the one that is missing. -/
theorem profile_between {nodes : List ℝ} {bins : List (Bin n)} {lo hi : ℝ} (hL : Ladder nodes lo hi) (hl : bins.length + 1 = nodes.length) {i : Nat}
    {x y z : ℝ} (hy : nodes[i]? = some y) (hz : nodes[i + 1]? = some z) (h1 : y < x) (h2 : x ≤ z) {a b c : Bin n} (ha : bins[i - 1]? = some a) (hb : bins[i]? = some b)
    (hc : bins[min (i + 1) (bins.length - 1)]? = some c) :
    getPlain nodes bins x = .ok (((x - y) / (z - y + 1 / 10 ^ 200)) • ((1 / 2 : ℝ) • (mean c + mean b)) +
      (1 - (x - y) / (z - y + 1 / 10 ^ 200)) • ((1 / 2 : ℝ) • (mean a + mean b))) := by
  have hi := (List.getElem?_eq_some_iff.1 hz).1
  have hlow : lowerBound nodes x = i + 1 := by
    have hlt : ¬ (nodes.takeWhile fun y => decide (y < x)).length ≤ i := fun h => by
      have := takeWhile_ge (p := fun y => decide (y < x)) (fun u v huv hv => by
        simp only [decide_eq_true_eq] at hv ⊢; exact huv.trans hv) hL.increasing h hy
      simp only [decide_eq_false_iff_not, not_lt] at this
      linarith
    have hge : ¬ i + 1 < (nodes.takeWhile fun y => decide (y < x)).length := fun h => by
      have := takeWhile_lt (p := fun y => decide (y < x)) h hz
      simp only [decide_eq_true_eq] at this
      linarith
    unfold lowerBound
    omega
  have hbin : leftBin nodes x = i := by unfold leftBin; omega
  have hmin : min (i + 1) (nodes.length - 1 - 1) = min (i + 1) (bins.length - 1) := by omega
  have ia := (List.getElem?_eq_some_iff.1 ha)
  have ib := (List.getElem?_eq_some_iff.1 hb)
  have ic := (List.getElem?_eq_some_iff.1 hc)
  have tiny_pos : (0 : ℝ) < tiny := by unfold tiny ODE.verySmallReal; positivity
  have t0 : 0 < z - y + tiny := by linarith
  have ht : max (min ((x - y) / (z - y + tiny)) 1) 0 = (x - y) / (z - y + tiny) := by
    rw [min_eq_left (by rw [div_le_one t0]; linarith), max_eq_left (div_nonneg (by linarith) t0.le)]
  unfold getPlain
  simp only [hbin, hmin, (idx_ok_iff _ _ _).2 hy, (idx_ok_iff _ _ _).2 hz, Res.ok_bind, get_spec hl ia.1, get_spec hl ib.1, get_spec hl ic.1, ia.2, ib.2, ic.2, ht]
  rfl

/-- three nodes, two intervals, a quarter of the way into the second one -/
example : getPlain [0, 1, 2] [((1 : ℝ), ![(2 : ℝ)]), (1, ![4])] (5 / 4) = .ok ((((5 / 4 : ℝ) - 1) / (2 - 1 + 1 / 10 ^ 200)) • ((1 / 2 : ℝ) • (mean (1, ![4]) + mean (1, ![4]))) +
    (1 - ((5 / 4 : ℝ) - 1) / (2 - 1 + 1 / 10 ^ 200)) • ((1 / 2 : ℝ) • (mean (1, ![2]) + mean (1, ![4])))) :=
  profile_between (lo := 0) (hi := 2) (i := 1) ⟨by simp, rfl, rfl, by norm_num⟩ rfl rfl rfl (by norm_num) (by norm_num) rfl rfl rfl

/-! ### radial equilibrium -/

theorem rises_spec {nodes : List ℝ} (rho vt : Fin n) : ∀ (cs : List (Val n)) (i : Nat) (p : ℝ) (b : Val n), 1 ≤ i → i + cs.length + 1 ≤ nodes.length →
    (∀ j, j + 1 < nodes.length → nd nodes j < nd nodes (j + 1)) →
    ∃ ps, rises nodes rho vt i p b cs = .ok ps ∧ ps.length = cs.length ∧
      ∀ j q q' v v', (p :: ps)[j]? = some q → (p :: ps)[j + 1]? = some q' → (b :: cs)[j]? = some v → (b :: cs)[j + 1]? = some v' →
        q' = q + rise rho vt (nd nodes (i + j - 1)) (nd nodes (i + j)) (nd nodes (i + j + 1)) v v'
  | [], i, p, b, _, _, _ => ⟨[], rfl, rfl, fun j q q' v v' _ h => by simp at h⟩
  | c :: cs, i, p, b, h1, h2, hs => by
    rw [List.length_cons] at h2
    have n0 := nd_of (show i - 1 < nodes.length by omega)
    have n1 := nd_of (show i < nodes.length by omega)
    have n2 := nd_of (show i + 1 < nodes.length by omega)
    obtain ⟨ps, e1, e2, e3⟩ := rises_spec rho vt cs (i + 1) (p + rise rho vt (nd nodes (i - 1)) (nd nodes i) (nd nodes (i + 1)) b c) c (by omega) (by omega) hs
    have l0 := hs (i - 1) (by omega)
    rw [show i - 1 + 1 = i by omega] at l0
    have l1 := hs i (by omega)
    have hstep : ∀ x y z : ℝ, (b rho * (y - x) + c rho * (z - y)) / (y - x + (z - y)) *
        ((b vt / b rho * (y - x) + c vt / c rho * (z - y)) / (y - x + (z - y)) * ((b vt / b rho * (y - x) + c vt / c rho * (z - y)) / (y - x + (z - y)))) / y *
        (1 / 2 * (y - x + (z - y))) = rise rho vt x y z b c := by
      intro x y z
      unfold rise over
      ring
    refine ⟨(p + rise rho vt (nd nodes (i - 1)) (nd nodes i) (nd nodes (i + 1)) b c) :: ps, ?_, by rw [List.length_cons, List.length_cons, e2], ?_⟩
    · unfold rises
      rw [(idx_ok_iff _ _ _).2 n0, Res.ok_bind, (idx_ok_iff _ _ _).2 n1, Res.ok_bind, (idx_ok_iff _ _ _).2 n2, Res.ok_bind]
      simp only [hstep]
      rw [e1, Res.ok_bind]
    · intro j q q' v v' g1 g2 g3 g4
      cases j with
      | zero =>
        simp only [List.getElem?_cons_zero, List.getElem?_cons_succ, Option.some.injEq, Nat.zero_add] at g1 g2 g3 g4
        subst g1 g2 g3 g4
        rfl
      | succ j =>
        rw [List.getElem?_cons_succ] at g1 g2 g3 g4
        have := e3 j q q' v v' g1 g2 g3 g4
        rw [show i + 1 + j - 1 = i + (j + 1) - 1 by omega, show i + 1 + j = i + (j + 1) by omega] at this
        exact this

/-- **C96** (radial equilibrium)  The pressure rise put on a profile is zero in the innermost interval, and from each interval to the next it grows by
what the turning of the gas needs; the other components are the means.  With densities above zero and the axis outside of the zone it does not fall
anywhere. -/
theorem radial_rise {nodes : List ℝ} {x0 x1 : ℝ} (hL : Ladder nodes x0 x1) {bins : List (Bin n)} (hl : bins.length + 1 = nodes.length) {rho vt en : Fin n} :
    ∃ bins' : List (Bin n), radialEq nodes rho vt en bins = .ok bins' ∧ bins'.length = bins.length ∧ (∀ b ∈ bins', b.1 = 1) ∧
      (∀ (i : Nat) b b', bins[i]? = some b → bins'[i]? = some b' → ∀ k, k ≠ en → b'.2 k = mean b k) ∧
      (∀ b', bins'[0]? = some b' → b'.2 en = 0) ∧
      (∀ i b c b' c' x y z, bins[i]? = some b → bins[i + 1]? = some c → bins'[i]? = some b' → bins'[i + 1]? = some c' →
        nodes[i]? = some x → nodes[i + 1]? = some y → nodes[i + 2]? = some z →
        c'.2 en = b'.2 en + rise rho vt x y z (mean b) (mean c) ∧ (0 < x0 → 0 < b.1 → 0 < b.2 rho → 0 < c.1 → 0 < c.2 rho → b'.2 en ≤ c'.2 en)) := by
  have h2 := hL.two
  have hlt : ∀ i, i + 1 < nodes.length → nd nodes i < nd nodes (i + 1) := by
    intro i hi
    have := List.pairwise_iff_getElem.1 hL.increasing i (i + 1) (by omega) hi (by omega)
    simpa [nd, List.getD, hi, show i < nodes.length by omega] using this
  obtain ⟨b0, bs, hb⟩ := List.exists_cons_of_ne_nil (show bins ≠ [] from fun h => by rw [h] at hl; simp at hl; omega)
  obtain ⟨ps, e1, e2, e3⟩ := rises_spec (nodes := nodes) rho vt (bs.map mean) 1 0 (mean b0) le_rfl (by rw [List.length_map]; rw [hb, List.length_cons] at hl; omega) hlt
  have hv : (bins.map fun b => (b.1 + tiny)⁻¹ • b.2) = mean b0 :: bs.map mean := by rw [hb]; rfl
  refine ⟨List.zipWith (fun v p => (1, Function.update v en p)) (mean b0 :: bs.map mean) (0 :: ps), ?_, ?_, ?_, ?_, ?_, ?_⟩
  · unfold radialEq
    simp only [hv]
    rw [e1, Res.ok_bind]
  · rw [List.length_zipWith, List.length_cons, List.length_cons, e2, hb]; simp
  · intro b hbm
    obtain ⟨i, hi, rfl⟩ := List.mem_iff_getElem.1 hbm
    rw [List.getElem_zipWith]
  · intro i b b' g1 g2 k hk
    rw [List.getElem?_zipWith, ← List.map_cons (f := mean), ← hb, List.getElem?_map, g1] at g2
    cases hp : (0 :: ps)[i]? with
    | none => rw [hp] at g2; simp at g2
    | some p =>
      rw [hp] at g2
      simp only [Option.map_some, Option.some.injEq] at g2
      rw [← g2]
      simp [Function.update, hk]
  · intro b' g
    simp only [List.zipWith_cons_cons, List.getElem?_cons_zero, Option.some.injEq] at g
    rw [← g]
    simp
  · intro i b c b' c' x y z g1 g2 g3 g4 gx gy gz
    rw [List.getElem?_zipWith, ← List.map_cons (f := mean), ← hb, List.getElem?_map] at g3 g4
    rw [g1] at g3
    rw [g2] at g4
    cases hp : (0 :: ps)[i]? with
    | none => rw [hp] at g3; simp at g3
    | some p =>
      cases hq : (0 :: ps)[i + 1]? with
      | none => rw [hq] at g4; simp at g4
      | some q =>
        rw [hp] at g3
        rw [hq] at g4
        simp only [Option.map_some, Option.some.injEq] at g3 g4
        have := e3 i p q (mean b) (mean c) hp hq (by rw [← List.map_cons (f := mean), ← hb, List.getElem?_map, g1]; rfl)
          (by rw [← List.map_cons (f := mean), ← hb, List.getElem?_map, g2]; rfl)
        have ex : nd nodes i = x := by simp [nd, List.getD, gx]
        have ey : nd nodes (i + 1) = y := by simp [nd, List.getD, gy]
        have ez : nd nodes (i + 2) = z := by simp [nd, List.getD, gz]
        rw [show 1 + i - 1 = i by omega, show 1 + i = i + 1 by omega, ex, ey, ez] at this
        have hlen := (List.getElem?_eq_some_iff.1 gz).1
        have hxy : x < y := by rw [← ex, ← ey]; exact hlt i (by omega)
        have hyz : y < z := by rw [← ey, ← ez]; exact hlt (i + 1) hlen
        rw [← g3, ← g4]
        simp only [Function.update_self]
        refine ⟨this, fun hx0 b1 b2 c1 c2 => ?_⟩
        rw [this]
        have hx : x0 ≤ x := by
          have hf := hL.first
          obtain ⟨t, ht⟩ : ∃ t, nodes = x0 :: t := by
            cases nodes with
            | nil => simp at hf
            | cons a t => simp at hf; exact ⟨t, by rw [hf]⟩
          cases i with
          | zero => rw [ht] at gx; simp at gx; rw [gx]
          | succ i =>
            rw [ht, List.getElem?_cons_succ] at gx
            have := hL.increasing
            rw [ht, List.pairwise_cons] at this
            exact (this.1 x (List.mem_of_getElem? gx)).le
        have m1 : 0 < mean b rho := by simp only [mean, Pi.smul_apply, smul_eq_mul]; positivity
        have m2 : 0 < mean c rho := by simp only [mean, Pi.smul_apply, smul_eq_mul]; positivity
        have hy : 0 < y := by linarith
        have d1 : 0 < y - x := by linarith
        have d2 : 0 < z - y := by linarith
        have d3 : 0 < (z + y) / 2 - (y + x) / 2 := by linarith
        have : 0 ≤ rise rho vt x y z (mean b) (mean c) := by
          unfold rise over
          positivity
        linarith

/-! ### a face at one radius -/

/-- a face whose nodes are at one radius makes the profile of its zone undefined (zero by zero), although its area and its radius are known -/
theorem flat_face_undefined : updateProfiles (n := 1) 10 none [[⟨[1, 2], 1, 0⟩, ⟨[1, 1], 1, 0⟩]] = .ub := by
  have e0 : allMin ([[⟨[1, 2], 1, 0⟩, ⟨[1, 1], 1, 0⟩]].map fun (fs : List (BFace 1)) => (fs.flatMap (·.radii)).foldl min veryLarge) = 1 :=
    extent_min (by
      refine ⟨⟨⟨[1, 2], 1, 0⟩, by simp, by simp⟩, ?_⟩
      rintro x ⟨f, hf, hx⟩
      simp only [List.flatten_cons, List.flatten_nil, List.append_nil, List.mem_cons, List.not_mem_nil, or_false] at hf
      rcases hf with rfl | rfl <;> simp at hx
      · rcases hx with rfl | rfl <;> norm_num
      · rw [hx]) (by norm_num [veryLarge])
  have e1 : allMax ([[⟨[1, 2], 1, 0⟩, ⟨[1, 1], 1, 0⟩]].map fun (fs : List (BFace 1)) => (fs.flatMap (·.radii)).foldl max (-veryLarge)) = 2 :=
    extent_max (by
      refine ⟨⟨⟨[1, 2], 1, 0⟩, by simp, by simp⟩, ?_⟩
      rintro x ⟨f, hf, hx⟩
      simp only [List.flatten_cons, List.flatten_nil, List.append_nil, List.mem_cons, List.not_mem_nil, or_false] at hf
      rcases hf with rfl | rfl <;> simp at hx
      · rcases hx with rfl | rfl <;> norm_num
      · rw [hx]; norm_num) (by norm_num [veryLarge])
  have hL : Ladder (linSpaced 10 1 2) 1 2 := linSpaced_ladder (by norm_num) (by norm_num)
  have hlen : (linSpaced 10 1 2).length - 1 = 10 := by simp [linSpaced]
  unfold updateProfiles
  have hm : makeNodes (n := 1) 10 none [[⟨[1, 2], 1, 0⟩, ⟨[1, 1], 1, 0⟩]] = .ok (linSpaced 10 1 2) := by
    unfold makeNodes
    simp only [e0, e1]
    rfl
  rw [hm, Res.ok_bind]
  have hv : (1 : ℝ) ≤ veryLarge ∧ (2 : ℝ) ≤ veryLarge := by constructor <;> norm_num [veryLarge]
  have hf : forRanks (fun _ fs => addFaces (linSpaced 10 1 2) fs (List.replicate ((linSpaced 10 1 2).length - 1) (0 : Bin 1))) 0
      [[⟨[1, 2], 1, 0⟩, ⟨[1, 1], 1, 0⟩]] = .ub := by
    unfold forRanks addFaces
    rw [show List.replicate ((linSpaced 10 1 2).length - 1) (0 : Bin 1) = (List.range ((linSpaced 10 1 2).length - 1)).map fun _ => 0 by simp]
    have m1 : min veryLarge (1 : ℝ) = 1 := min_eq_right hv.1
    have m2 : max (-veryLarge) (1 : ℝ) = 1 := max_eq_right (by linarith [hv.1])
    simp only [List.foldl_cons, List.foldl_nil, m1, m2]
    rw [show min (1 : ℝ) 2 = 1 by norm_num, show max (1 : ℝ) 2 = 2 by norm_num, addInterval_spec hL.two hL.increasing _ _ (by norm_num), Res.ok_bind]
    unfold addFaces addInterval
    simp only [List.foldl_cons, List.foldl_nil, m1, m2, max_self, min_self]
    rw [if_pos (.inr trivial)]
    rfl
  rw [hf]
  rfl

/-- non-vacuity: two ranks with a face of radii 1 to 3 and one of 2 to 4 -/
example : ∃ nodes x0 x1 bins, Ladder nodes x0 x1 ∧
    updateProfiles (n := 1) 0 none [[⟨[1, 3], 2, fun _ => 5⟩], [⟨[4, 2], 1, fun _ => 8⟩]] = .ok [(nodes, bins), (nodes, bins)] ∧
    (bins.map Prod.fst).sum = 3 ∧ (bins.map Prod.snd).sum 0 = 18 := by
  obtain ⟨nodes, hn⟩ := nodes_uniform 0 [[(⟨[1, 3], 2, fun _ => 5⟩ : BFace 1)], [⟨[4, 2], 1, fun _ => 8⟩]]
  obtain ⟨x0, x1, bins, -, -, h1, -, h2, -, -, h3, h4⟩ := profile_total (lo := fun f => f.radii.foldl min 10) (hi := fun f => f.radii.foldl max 0) (by
    intro f hf
    simp only [List.flatten_cons, List.flatten_nil, List.append_nil, List.mem_cons, List.not_mem_nil, or_false, List.singleton_append] at hf
    rcases hf with rfl | rfl <;> refine ⟨⟨by norm_num, ?_⟩, ⟨by norm_num, ?_⟩, by norm_num, ?_⟩ <;> intro x hx <;> simp at hx <;>
      rcases hx with rfl | rfl <;> norm_num [veryLarge]) (by simp) hn
  refine ⟨nodes, x0, x1, bins, h1, h2, ?_, ?_⟩
  · rw [h3]; norm_num
  · rw [h4]; norm_num

example : ∃ rs, updateAnchors (n := 1) [⟨0, 0⟩, ⟨0, 0⟩, ⟨0, 0⟩] [[(fun _ => 1, 3)], [(fun _ => 2, 1), (fun _ => 4, 2)], []] = .ok rs ∧ rs.length = 3 ∧ ∀ s ∈ rs, s.val 0 = 2 := by
  obtain ⟨rs, v, h1, h2, h3, h4⟩ := anchor_nearest (n := 1) (old := [⟨0, 0⟩, ⟨0, 0⟩, ⟨0, 0⟩]) (pts := [[(fun _ => 1, 3)], [(fun _ => 2, 1), (fun _ => 4, 2)], []]) rfl (by simp)
  obtain ⟨q, hq, hv, hm⟩ := h4 ⟨(fun _ => 2, 1), by simp, by norm_num [veryLarge]⟩
  refine ⟨rs, h1, h2, fun s hs => ?_⟩
  rw [h3 s hs, ← hv]
  have := hm (fun _ => 2, 1) (by simp)
  simp only [List.flatten_cons, List.flatten_nil, List.append_nil, List.mem_cons, List.not_mem_nil, or_false, List.cons_append, List.nil_append] at hq
  rcases hq with rfl | rfl | rfl
  · norm_num at this
  · rfl
  · norm_num at this

end DNDSR.BRec
