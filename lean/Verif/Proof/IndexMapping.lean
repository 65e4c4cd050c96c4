import Verif.Spec.IndexMapping

namespace DNDSR.IMap

theorem idx_ok_iff {α : Type} (l : List α) (k : Nat) (x : α) : idx l k = .ok x ↔ l[k]? = some x := by
  unfold idx; cases l[k]? <;> simp

theorem idx_ok {α : Type} (l : List α) (k : Nat) (h : k < l.length) : idx l k = .ok l[k] := by
  rw [idx_ok_iff]; simp [h]

/-! ### lower_bound -/

theorem lowerBoundGo_spec {α : Type} (p : α → Bool) (l : List α)
    (hd : ∀ (i j : Nat) (x y : α), i < j → l[i]? = some x → l[j]? = some y → p y = true → p x = true) :
    ∀ (len first : Nat), first + len ≤ l.length →
      (∀ (i : Nat) (x : α), i < first → l[i]? = some x → p x = true) →
      (∀ (i : Nat) (x : α), first + len ≤ i → i < l.length → l[i]? = some x → p x = false) →
      ∃ k, lowerBoundGo p l first len = .ok k ∧ first ≤ k ∧ k ≤ first + len ∧
        (∀ (i : Nat) (x : α), i < k → l[i]? = some x → p x = true) ∧
        (∀ (i : Nat) (x : α), k ≤ i → i < l.length → l[i]? = some x → p x = false) := by
  intro len
  induction len using Nat.strongRecOn with
  | _ len ih =>
    intro first hle h1 h2
    rw [lowerBoundGo]
    by_cases h0 : len = 0
    · rw [if_pos h0]
      refine ⟨first, rfl, Nat.le_refl _, by omega, h1, ?_⟩
      intro i x hi
      exact h2 i x (by omega)
    · rw [if_neg h0]
      have hm : first + len / 2 < l.length := by omega
      simp only [List.getElem?_eq_getElem hm]
      cases hp : p (l[first + len / 2]) with
      | true =>
        simp only [if_true]
        obtain ⟨k, hk, hk1, hk2, hk3, hk4⟩ := ih (len - len / 2 - 1) (by omega) (first + len / 2 + 1)
          (by omega)
          (by
            intro i x hi hx
            by_cases hi' : i = first + len / 2
            · subst hi'; rw [List.getElem?_eq_getElem hm] at hx; cases hx; exact hp
            · exact hd i (first + len / 2) x _ (by omega) hx (List.getElem?_eq_getElem hm) hp)
          (by intro i x hi; exact h2 i x (by omega))
        exact ⟨k, hk, by omega, by omega, hk3, hk4⟩
      | false =>
        simp only [Bool.false_eq_true, if_false]
        obtain ⟨k, hk, hk1, hk2, hk3, hk4⟩ := ih (len / 2) (by omega) first (by omega) h1
          (by
            intro i x hi hil hx
            by_cases hi' : i = first + len / 2
            · subst hi'; rw [List.getElem?_eq_getElem hm] at hx; cases hx; exact hp
            · cases hpx : p x with
              | false => rfl
              | true =>
                have := hd (first + len / 2) i _ x (by omega) (List.getElem?_eq_getElem hm) hx hpx
                rw [hp] at this; cases this)
        exact ⟨k, hk, by omega, by omega, hk3, hk4⟩

/-! ### running over ranks -/

theorem forRanks_ok {α β : Type} (f : Nat → α → Res β) : ∀ (l : List α) (r : Nat) (ys : List β),
    forRanks f r l = .ok ys ↔ ys.length = l.length ∧
      ∀ i x, l[i]? = some x → ∃ y, ys[i]? = some y ∧ f (r + i) x = .ok y := by
  intro l
  induction l with
  | nil =>
    intro r ys
    simp only [forRanks, Res.ok.injEq, List.length_nil, List.length_eq_zero_iff]
    constructor
    · rintro rfl; exact ⟨rfl, by intro i x h; simp at h⟩
    · intro h; exact h.1.symm
  | cons x xs ih =>
    intro r ys
    simp only [forRanks, Res.bind_ok_iff, Res.ok.injEq]
    constructor
    · rintro ⟨y, hy, ys', hys, rfl⟩
      obtain ⟨h1, h2⟩ := (ih _ _).1 hys
      refine ⟨by simp [h1], ?_⟩
      intro i z hz
      cases i with
      | zero => simp at hz; subst hz; exact ⟨y, by simp, by simpa using hy⟩
      | succ i =>
        obtain ⟨w, hw1, hw2⟩ := h2 i z (by simpa using hz)
        exact ⟨w, by simpa using hw1, by rw [← hw2]; congr 1; omega⟩
    · rintro ⟨h1, h2⟩
      cases ys with
      | nil => simp at h1
      | cons y ys =>
        obtain ⟨w, hw1, hw2⟩ := h2 0 x (by simp)
        simp at hw1; subst hw1
        refine ⟨y, by simpa using hw2, ys, ?_, rfl⟩
        rw [ih]
        refine ⟨by simpa using h1, ?_⟩
        intro i z hz
        obtain ⟨w, hw1, hw2⟩ := h2 (i + 1) z (by simpa using hz)
        exact ⟨w, by simpa using hw1, by rw [← hw2]; congr 1; omega⟩

theorem forRanks_total {α β : Type} (f : Nat → α → Res β) : ∀ (l : List α) (r : Nat),
    (∀ i x, l[i]? = some x → ∃ y, f (r + i) x = .ok y) → ∃ ys, forRanks f r l = .ok ys := by
  intro l
  induction l with
  | nil => intro r _; exact ⟨[], rfl⟩
  | cons x xs ih =>
    intro r h
    obtain ⟨y, hy⟩ := h 0 x (by simp)
    obtain ⟨ys, hys⟩ := ih (r + 1) (by
      intro i z hz
      obtain ⟨w, hw⟩ := h (i + 1) z (by simpa using hz)
      exact ⟨w, by rw [← hw]; congr 1; omega⟩)
    refine ⟨y :: ys, ?_⟩
    rw [forRanks, show f r x = .ok y by simpa using hy, Res.ok_bind, hys, Res.ok_bind]

theorem forRanks_ne_ub {α β : Type} (f : Nat → α → Res β) : ∀ (l : List α) (r : Nat),
    (∀ i x, l[i]? = some x → f (r + i) x ≠ .ub) → forRanks f r l ≠ .ub := by
  intro l
  induction l with
  | nil => intro r _; simp [forRanks]
  | cons x xs ih =>
    intro r h
    have h0 := h 0 x (by simp)
    simp only [Nat.add_zero] at h0
    have h1 := ih (r + 1) (by
      intro i z hz hu
      exact h (i + 1) z (by simpa using hz) (by rw [← hu]; congr 1; omega))
    rw [forRanks]
    cases hx : f r x with
    | ub => exact absurd hx h0
    | abort => simp
    | ok y =>
      rw [Res.ok_bind]
      cases hy : forRanks f (r + 1) xs with
      | ub => exact absurd hy h1
      | abort => simp
      | ok ys => simp

/-! ### offsets -/

theorem before_succ (lens : List Nat) (r : Nat) (h : r < lens.length) :
    before lens (r + 1) = before lens r + lens[r] := by
  unfold before
  rw [List.take_succ_eq_append_getElem h, List.sum_append_nat]
  simp

theorem before_mono (lens : List Nat) {i j : Nat} (h : i ≤ j) : before lens i ≤ before lens j := by
  unfold before
  obtain ⟨k, rfl⟩ := Nat.exists_eq_add_of_le h
  rw [List.take_add]
  simp

theorem before_le_total (lens : List Nat) (i : Nat) : before lens i ≤ lens.sum := by
  unfold before
  conv => rhs; rw [← List.take_append_drop i lens]
  rw [List.sum_append_nat]; omega

theorem accumOffs_eq : ∀ (lens : List Nat) (cur : Nat),
    accumOffs cur (lens.map Int.ofNat) =
      .ok ((List.range lens.length).map (fun i => (cur : Int) + before lens (i + 1))) := by
  intro lens
  induction lens with
  | nil => intro cur; rfl
  | cons l ls ih =>
    intro cur
    have hn : (cur : Int) + Int.ofNat l = ((cur + l : Nat) : Int) := by simp
    simp only [List.map_cons, accumOffs, hn]
    rw [Res.assert_true _ (by omega), Res.ok_bind, ih, Res.ok_bind]
    congr 1
    simp only [List.length_cons, List.range_succ_eq_map, List.map_cons, List.map_map]
    rw [List.cons.injEq]
    constructor
    · simp [before]
    · apply List.map_congr_left
      intro i _
      simp only [before, Function.comp_apply, List.take_succ_cons, List.sum_cons, Nat.succ_eq_add_one]
      omega

theorem accumOffs_zero (lens : List Nat) : accumOffs 0 (lens.map Int.ofNat) =
    .ok ((List.range lens.length).map (fun i => (before lens (i + 1) : Int))) := by
  have := accumOffs_eq lens 0
  rw [show ((0 : Nat) : Int) = 0 from rfl] at this
  simpa using this

theorem built_eq {lens : List Nat} {g : GOM} (h : Built lens g) :
    g.lens = lens.map Int.ofNat ∧
    g.offs = (List.range (lens.length + 1)).map (fun i => (before lens i : Int)) := by
  simp only [Built, setMPIAlignBcast, accumOffs_zero, Res.ok_bind, Res.ok.injEq] at h
  subst h
  refine ⟨rfl, ?_⟩
  rw [List.range_succ_eq_map]
  simp [before]

theorem built_exists (lens : List Nat) : ∃ g, Built lens g :=
  ⟨⟨lens.map Int.ofNat, 0 :: (List.range lens.length).map (fun i => (before lens (i + 1) : Int))⟩, by
    simp only [Built, setMPIAlignBcast, accumOffs_zero, Res.ok_bind]⟩

theorem built_offs {lens : List Nat} {g : GOM} (h : Built lens g) (i : Nat) (hi : i ≤ lens.length) :
    g.offs[i]? = some (before lens i : Int) := by
  rw [(built_eq h).2, List.getElem?_map, List.getElem?_range (by omega)]
  rfl

theorem built_offs_length {lens : List Nat} {g : GOM} (h : Built lens g) :
    g.offs.length = lens.length + 1 := by
  rw [(built_eq h).2]; simp

theorem owns_unique {lens : List Nat} {r s : Nat} {q : Int} (h1 : Owns lens r q) (h2 : Owns lens s q) :
    r = s := by
  obtain ⟨hr, a1, a2⟩ := h1
  obtain ⟨hs, b1, b2⟩ := h2
  rcases Nat.lt_trichotomy r s with h | h | h
  · have := before_mono lens (show r + 1 ≤ s from h)
    rw [before_succ lens r hr] at this; omega
  · exact h
  · have := before_mono lens (show s + 1 ≤ r from h)
    rw [before_succ lens s hs] at this; omega

theorem search_eq {lens : List Nat} {g : GOM} (h : Built lens g) (q : Int) :
    (∃ r, Owns lens r q ∧ g.search q = .ok (some (r, q - before lens r))) ∨
    ((q < 0 ∨ (lens.sum : Int) ≤ q) ∧ g.search q = .ok none) := by
  have hlen := built_offs_length h
  have hlens : g.lens.length = lens.length := by rw [(built_eq h).1]; simp
  have hoff := fun i hi => built_offs h i hi
  obtain ⟨k, hk, _, hk2, hk3, hk4⟩ := lowerBoundGo_spec (fun x => decide (x ≤ q)) g.offs
    (by
      intro i j x y hij hx hy hp
      have hj : j ≤ lens.length := by
        have := (List.getElem?_eq_some_iff.1 hy).1; omega
      rw [hoff i (by omega)] at hx; rw [hoff j hj] at hy
      cases hx; cases hy
      have := before_mono lens (show i ≤ j by omega)
      simp only [decide_eq_true_eq] at hp ⊢; omega)
    g.offs.length 0 (by omega) (by intro i x hi; omega) (by intro i x hi hi'; omega)
  simp only [Nat.zero_add] at hk2
  have hne : g.offs.isEmpty = false := by
    cases ho : g.offs with
    | nil => rw [ho] at hlen; simp at hlen
    | cons => rfl
  have hsr : g.search q = (if k = 0 then .ok none else if k - 1 < g.lens.length then do
        let o ← idx g.offs (k - 1)
        .ok (some (k - 1, q - o))
      else .ok none) := by
    simp only [GOM.search, hne, lowerBound, Nat.sub_zero, hk, Res.ok_bind, Bool.false_eq_true, if_false]
  rw [hsr]
  by_cases hk0 : k = 0
  · right
    have := hk4 0 _ (by omega) (by omega) (hoff 0 (by omega))
    have hb0 : before lens 0 = 0 := rfl
    rw [hb0, decide_eq_false_iff_not] at this
    refine ⟨Or.inl (by omega), by rw [if_pos hk0]⟩
  · rw [if_neg hk0, hlens]
    have hlow := hk3 (k - 1) _ (by omega) (hoff (k - 1) (by omega))
    simp only [decide_eq_true_eq] at hlow
    by_cases hkl : k - 1 < lens.length
    · left
      have hhi := hk4 k _ (Nat.le_refl _) (by omega) (hoff k (by omega))
      simp only [decide_eq_false_iff_not] at hhi
      have hs := before_succ lens (k - 1) hkl
      rw [Nat.sub_add_cancel (by omega)] at hs
      refine ⟨k - 1, ⟨hkl, hlow, by omega⟩, ?_⟩
      rw [if_pos hkl, (idx_ok_iff _ _ _).2 (hoff (k - 1) (by omega)), Res.ok_bind]
    · right
      have : k - 1 = lens.length := by omega
      rw [if_neg hkl]
      refine ⟨Or.inr ?_, rfl⟩
      rw [this] at hlow
      simpa [before] using hlow

theorem owns_exists {lens : List Nat} {q : Int} (h0 : 0 ≤ q) (h1 : q < lens.sum) :
    ∃ r, Owns lens r q := by
  obtain ⟨g, hg⟩ := built_exists lens
  rcases search_eq hg q with ⟨r, hr, _⟩ | ⟨h, _⟩
  · exact ⟨r, hr⟩
  · omega

theorem owns_range {lens : List Nat} {r : Nat} {q : Int} (h : Owns lens r q) : 0 ≤ q ∧ q < lens.sum := by
  obtain ⟨hr, h1, h2⟩ := h
  have := before_le_total lens (r + 1)
  rw [before_succ lens r hr] at this
  omega

theorem search_of_owns {lens : List Nat} {g : GOM} (h : Built lens g) {r : Nat} {q : Int}
    (ho : Owns lens r q) : g.search q = .ok (some (r, q - before lens r)) := by
  rcases search_eq h q with ⟨s, hs, he⟩ | ⟨h1, _⟩
  · rw [owns_unique ho hs]; exact he
  · have := owns_range ho; omega

theorem apply_eq {lens : List Nat} {g : GOM} (h : Built lens g) (r : Nat) (hr : r < lens.length) (v : Int) :
    g.apply r v = if 0 ≤ v ∧ v ≤ lens[r] then .ok (before lens r + v) else .abort := by
  have hlens : g.lens.length = lens.length := by rw [(built_eq h).1]; simp
  simp only [GOM.apply]
  rw [Res.assert_true _ (by omega), Res.ok_bind, Int.toNat_natCast,
    (idx_ok_iff _ _ _).2 (built_offs h (r + 1) (by omega)), Res.ok_bind,
    (idx_ok_iff _ _ _).2 (built_offs h r (by omega)), Res.ok_bind, before_succ lens r hr]
  by_cases hv : 0 ≤ v ∧ v ≤ lens[r]
  · rw [Res.assert_true _ (by omega), if_pos hv, Res.ok_bind]
  · rw [(Res.assert_abort_iff _).2 (by omega), if_neg hv, Res.abort_bind]


/-! ### sorting and counting -/

theorem sortIdx_perm (l : List Int) : (sortIdx l).Perm l := List.mergeSort_perm l _

theorem sortIdx_sorted (l : List Int) : (sortIdx l).Pairwise (· ≤ ·) := by
  have := List.pairwise_mergeSort (le := fun (a b : Int) => decide (a ≤ b))
    (by intro a b c; simp only [decide_eq_true_eq]; omega)
    (by intro a b; simp only [Bool.or_eq_true, decide_eq_true_eq]; omega) l
  simpa [sortIdx] using this

theorem sortIdx_of_sorted (l : List Int) (h : l.Pairwise (· ≤ ·)) : sortIdx l = l := by
  unfold sortIdx
  apply List.mergeSort_of_pairwise
  exact h.imp (by intro a b h; simpa using h)

theorem uniqueGo_spec : ∀ (l : List Int) (prev : Int), (prev :: l).Pairwise (· ≤ ·) →
    (prev :: uniqueGo prev l).Pairwise (· < ·) ∧ ∀ x, x ∈ prev :: uniqueGo prev l ↔ x ∈ prev :: l := by
  intro l
  induction l with
  | nil => intro prev _; simp [uniqueGo]
  | cons y ys ih =>
    intro prev h
    rw [uniqueGo]
    have hy : prev ≤ y := (List.pairwise_cons.1 h).1 y (by simp)
    by_cases he : y = prev
    · rw [if_pos he]
      subst he
      obtain ⟨h1, h2⟩ := ih y (List.pairwise_cons.1 h).2
      refine ⟨h1, ?_⟩
      intro x; rw [h2]; simp
    · rw [if_neg he]
      obtain ⟨h1, h2⟩ := ih y (List.pairwise_cons.1 h).2
      constructor
      · rw [List.pairwise_cons]
        refine ⟨?_, h1⟩
        intro x hx
        have : y ≤ x := by
          rcases List.mem_cons.1 hx with rfl | hx'
          · exact Int.le_refl _
          · have := (List.pairwise_cons.1 h1).1 x hx'; omega
        omega
      · intro x
        have := h2 x
        simp only [List.mem_cons] at this ⊢
        rw [this]

theorem unique_sorted_spec (l : List Int) (h : l.Pairwise (· ≤ ·)) :
    (unique l).Pairwise (· < ·) ∧ ∀ x, x ∈ unique l ↔ x ∈ l := by
  cases l with
  | nil => simp [unique]
  | cons x xs => exact uniqueGo_spec xs x h

/-- the ghost list the constructor builds -/
theorem pulling_spec (req : List Int) : (unique (sortIdx req)).Pairwise (· < ·) ∧
    ∀ x, x ∈ unique (sortIdx req) ↔ x ∈ req := by
  obtain ⟨h1, h2⟩ := unique_sorted_spec _ (sortIdx_sorted req)
  exact ⟨h1, fun x => by rw [h2, (sortIdx_perm req).mem_iff]⟩

theorem sorted_lt_countP (l : List Int) (h : l.Pairwise (· < ·)) (b : Int) : ∀ (p : Nat) (x : Int),
    l[p]? = some x → (x < b ↔ p < l.countP (fun y => decide (y < b))) := by
  induction l with
  | nil => intro p x hx; simp at hx
  | cons y ys ih =>
    intro p x hx
    obtain ⟨h1, h2⟩ := List.pairwise_cons.1 h
    by_cases hy : y < b
    · rw [List.countP_cons_of_pos (by simpa using hy)]
      cases p with
      | zero => simp at hx; subst hx; simp [hy]
      | succ p => rw [ih h2 p x (by simpa using hx)]; omega
    · rw [List.countP_cons_of_neg (by simpa using hy)]
      have h0 : ys.countP (fun y => decide (y < b)) = 0 := by
        rw [List.countP_eq_zero]
        intro z hz; have := h1 z hz; simp; omega
      rw [h0]
      cases p with
      | zero => simp at hx; subst hx; simp [hy]
      | succ p =>
        have := h1 x (List.mem_of_getElem? (by simpa using hx))
        simp; omega

/-! ### the local part of the pull constructor -/

/-- number of entries of `l` owned by rank `r` -/
def cnt (lens : List Nat) (l : List Int) (r : Nat) : Nat :=
  l.countP (fun q => decide ((before lens r : Int) ≤ q ∧ q < before lens (r + 1)))

theorem owns_iff (lens : List Nat) (r : Nat) (hr : r < lens.length) (q : Int) :
    Owns lens r q ↔ (before lens r : Int) ≤ q ∧ q < before lens (r + 1) := by
  rw [before_succ lens r hr]
  constructor
  · rintro ⟨_, h⟩; omega
  · intro h; exact ⟨hr, by omega⟩

theorem countGo_spec {lens : List Nat} {g : GOM} (hg : Built lens g) :
    ∀ (l : List Int) (sizes : List Nat), sizes.length = lens.length →
    ((∀ q ∈ l, 0 ≤ q ∧ q < lens.sum) →
      countGo g sizes l = .ok ((List.range lens.length).map (fun r => (sizes[r]?.getD 0) + cnt lens l r))) ∧
    (¬ (∀ q ∈ l, 0 ≤ q ∧ q < lens.sum) → countGo g sizes l = .abort) := by
  intro l
  induction l with
  | nil =>
    intro sizes hs
    refine ⟨fun _ => ?_, fun h => absurd (by simp) h⟩
    simp only [countGo]
    congr 1
    apply List.ext_getElem?
    intro k
    by_cases hk : k < lens.length
    · rw [List.getElem?_map, List.getElem?_range hk]
      simp [cnt, List.getElem?_eq_getElem (show k < sizes.length by omega)]
    · rw [List.getElem?_eq_none (by omega), List.getElem?_eq_none (by simp; omega)]
  | cons q qs ih =>
    intro sizes hs
    simp only [countGo]
    rcases search_eq hg q with ⟨r, ho, he⟩ | ⟨h1, he⟩
    · have hr : r < lens.length := ho.1
      have hin := owns_range ho
      rw [he, Res.ok_bind]
      simp only
      rw [if_pos (by omega)]
      obtain ⟨i1, i2⟩ := ih (sizes.modify r (· + 1)) (by simpa using hs)
      constructor
      · intro hall
        rw [i1 (fun x hx => hall x (by simp [hx]))]
        congr 1
        apply List.map_congr_left
        intro k hk
        have hk' : k < lens.length := by simpa using hk
        have hok := owns_iff lens k hk' q
        rw [List.getElem?_modify, List.getElem?_eq_getElem (show k < sizes.length by omega)]
        by_cases hrk : r = k
        · subst hrk
          have := hok.1 ho
          simp only [if_pos, Option.getD_some, cnt]
          rw [List.countP_cons_of_pos (by simpa using this)]
          simp; omega
        · have : ¬ ((before lens k : Int) ≤ q ∧ q < before lens (k + 1)) := by
            intro hx; exact hrk (owns_unique ho (hok.2 hx))
          simp only [if_neg hrk, Option.getD_some, cnt]
          rw [List.countP_cons_of_neg (by simpa using this)]
          simp
      · intro hn
        apply i2
        intro hx
        apply hn
        intro x hxm
        rcases List.mem_cons.1 hxm with rfl | h
        · exact hin
        · exact hx x h
    · rw [he, Res.ok_bind]
      refine ⟨fun hall => ?_, fun _ => rfl⟩
      have := hall q (by simp)
      omega

theorem fillGo_spec {lens : List Nat} {g : GOM} (hg : Built lens g) : ∀ (l : List Int),
    (∀ q ∈ l, 0 ≤ q ∧ q < lens.sum) → fillGo g l = .ok l := by
  intro l
  induction l with
  | nil => intro _; rfl
  | cons q qs ih =>
    intro h
    rcases search_eq hg q with ⟨r, ho, he⟩ | ⟨h1, he⟩
    · simp only [fillGo, he, Res.ok_bind, ih (fun x hx => h x (by simp [hx]))]
    · have := h q (by simp); omega

theorem sum_cnt (lens : List Nat) (l : List Int) (h : ∀ q ∈ l, 0 ≤ q) : ∀ (r : Nat),
    ((List.range r).map (cnt lens l)).sum = l.countP (fun q => decide (q < (before lens r : Int))) := by
  intro r
  induction r with
  | zero =>
    simp only [List.range_zero, List.map_nil, List.sum_nil]
    symm
    rw [List.countP_eq_zero]
    intro x hx; have := h x hx
    have hb0 : before lens 0 = 0 := rfl
    simp only [decide_eq_true_eq]
    rw [hb0]; omega
  | succ r ih =>
    rw [List.range_succ, List.map_append, List.sum_append_nat, ih]
    simp only [List.map_cons, List.map_nil, List.sum_cons, List.sum_nil, Nat.add_zero, cnt]
    have hm := before_mono lens (show r ≤ r + 1 by omega)
    clear ih h
    induction l with
    | nil => rfl
    | cons q qs ih =>
      simp only [List.countP_cons]
      have e : (if decide ((before lens r : Int) ≤ q ∧ q < before lens (r + 1)) = true then 1 else 0) +
          (if decide (q < (before lens r : Int)) = true then 1 else 0) =
          (if decide (q < (before lens (r + 1) : Int)) = true then 1 else 0) := by
        simp only [decide_eq_true_eq]
        split <;> split <;> split <;> omega
      omega

theorem startsGo_spec : ∀ (sizes : List Nat) (cur : Nat), (cur : Int) ≤ Defines.intMax 32 →
    (((cur + sizes.sum : Nat) : Int) ≤ Defines.intMax 32 →
      startsGo cur sizes = .ok ((List.range sizes.length).map (fun i => cur + (sizes.take (i + 1)).sum))) ∧
    (¬ ((cur + sizes.sum : Nat) : Int) ≤ Defines.intMax 32 → startsGo cur sizes = .abort) := by
  intro sizes
  induction sizes with
  | nil => intro cur hc; simp [startsGo]; omega
  | cons s ss ih =>
    intro cur hc
    simp only [startsGo, List.sum_cons]
    by_cases hn : ((cur + s : Nat) : Int) ≤ Defines.intMax 32
    · rw [Res.assert_true _ hn, Res.ok_bind]
      obtain ⟨i1, i2⟩ := ih (cur + s) hn
      constructor
      · intro h
        rw [i1 (by rw [Nat.add_assoc]; exact h), Res.ok_bind]
        congr 1
        simp only [List.length_cons, List.range_succ_eq_map, List.map_cons, List.map_map]
        rw [List.cons.injEq]
        refine ⟨by simp, ?_⟩
        apply List.map_congr_left
        intro i _
        simp only [Function.comp_apply, List.take_succ_cons, List.sum_cons, Nat.succ_eq_add_one]
        omega
      · intro h
        rw [i2 (by rw [Nat.add_assoc]; exact h), Res.abort_bind]
    · rw [(Res.assert_abort_iff _).2 hn, Res.abort_bind]
      refine ⟨fun h => ?_, fun _ => rfl⟩
      exfalso; apply hn; omega

theorem starts_spec (sizes : List Nat) :
    ((sizes.sum : Int) ≤ Defines.intMax 32 → starts sizes = .ok (plainStarts sizes)) ∧
    (¬ (sizes.sum : Int) ≤ Defines.intMax 32 → starts sizes = .abort) := by
  obtain ⟨h1, h2⟩ := startsGo_spec sizes 0 (by simp [Defines.intMax])
  simp only [Nat.zero_add] at h1 h2
  constructor
  · intro h
    rw [starts, h1 h, Res.ok_bind, plainStarts, List.range_succ_eq_map]
    simp
  · intro h
    rw [starts, h2 h, Res.abort_bind]

theorem starts_ok_iff (sizes st : List Nat) :
    starts sizes = .ok st ↔ (sizes.sum : Int) ≤ Defines.intMax 32 ∧ st = plainStarts sizes := by
  obtain ⟨h1, h2⟩ := starts_spec sizes
  by_cases h : (sizes.sum : Int) ≤ Defines.intMax 32
  · rw [h1 h]; simp [h, eq_comm]
  · rw [h2 h]; simp [h]

theorem plainStarts_get (sizes : List Nat) (i : Nat) (h : i ≤ sizes.length) :
    (plainStarts sizes)[i]? = some (sizes.take i).sum := by
  rw [plainStarts, List.getElem?_map, List.getElem?_range (by omega)]; rfl

theorem plainStarts_length (sizes : List Nat) : (plainStarts sizes).length = sizes.length + 1 := by
  simp [plainStarts]

/-- what `pullLocal` computes -/
structure LocalOk (lens : List Nat) (req : List Int) (p : PullLocal) : Prop where
  sizes : p.ghostSizes = (List.range lens.length).map (cnt lens (unique (sortIdx req)))
  st : p.ghostStart = plainStarts p.ghostSizes
  gi : p.ghostIndex = unique (sortIdx req)
  range : ∀ q ∈ req, 0 ≤ q ∧ q < lens.sum

theorem pullLocal_spec {lens : List Nat} {g : GOM} (hg : Built lens g) (req : List Int) :
    (∀ p, pullLocal g lens.length req = .ok p → LocalOk lens req p) ∧
    ((∀ q ∈ req, 0 ≤ q ∧ q < lens.sum) → ((unique (sortIdx req)).length : Int) ≤ Defines.intMax 32 →
      ∃ p, pullLocal g lens.length req = .ok p) ∧
    pullLocal g lens.length req ≠ .ub := by
  obtain ⟨hp1, hp2⟩ := pulling_spec req
  obtain ⟨c1, c2⟩ := countGo_spec hg (unique (sortIdx req)) (List.replicate lens.length 0) (by simp)
  by_cases hall : ∀ q ∈ unique (sortIdx req), 0 ≤ q ∧ q < lens.sum
  · have c1' : countGo g (List.replicate lens.length 0) (unique (sortIdx req)) =
        .ok ((List.range lens.length).map (cnt lens (unique (sortIdx req)))) := by
      rw [c1 hall]; congr 1
      apply List.map_congr_left
      intro k hk
      have hk' : k < lens.length := by simpa using hk
      simp [hk']
    have hf := fillGo_spec hg _ hall
    have hs := sortIdx_of_sorted (unique (sortIdx req)) (hp1.imp (by intro a b h; omega))
    have hsum := sum_cnt lens (unique (sortIdx req)) (fun q hq => (hall q hq).1) lens.length
    have hcount : (unique (sortIdx req)).countP (fun q => decide (q < (before lens lens.length : Int))) =
        (unique (sortIdx req)).length := by
      rw [List.countP_eq_length]
      intro x hx
      have := (hall x hx).2
      simpa [before] using this
    rw [hcount] at hsum
    obtain ⟨s1, s2⟩ := starts_spec ((List.range lens.length).map (cnt lens (unique (sortIdx req))))
    refine ⟨?_, ?_, ?_⟩
    · intro p h
      simp only [pullLocal, c1', Res.ok_bind, hf, hs, Res.bind_ok_iff, starts_ok_iff, Res.ok.injEq] at h
      obtain ⟨st, ⟨_, rfl⟩, rfl⟩ := h
      exact ⟨rfl, rfl, rfl, fun q hq => hall q ((hp2 q).2 hq)⟩
    · intro _ hlen
      simp only [pullLocal, c1', Res.ok_bind, hf]
      rw [s1 (by rw [hsum]; exact hlen), Res.ok_bind]
      exact ⟨_, rfl⟩
    · simp only [pullLocal, c1', Res.ok_bind, hf]
      by_cases hl : (((List.range lens.length).map (cnt lens (unique (sortIdx req)))).sum : Int) ≤
          Defines.intMax 32
      · rw [s1 hl]; simp
      · rw [s2 hl]; simp
  · have hab : pullLocal g lens.length req = .abort := by
      simp only [pullLocal, c2 hall, Res.abort_bind]
    rw [hab]
    refine ⟨by simp, ?_, by simp⟩
    intro h; exfalso; apply hall
    intro q hq; exact h q ((hp2 q).1 hq)

theorem LocalOk.sizes_length {lens : List Nat} {req : List Int} {p : PullLocal} (h : LocalOk lens req p) :
    p.ghostSizes.length = lens.length := by rw [h.sizes]; simp

theorem LocalOk.sorted {lens : List Nat} {req : List Int} {p : PullLocal} (h : LocalOk lens req p) :
    p.ghostIndex.Pairwise (· < ·) := by rw [h.gi]; exact (pulling_spec req).1

theorem LocalOk.mem {lens : List Nat} {req : List Int} {p : PullLocal} (h : LocalOk lens req p) (q : Int) :
    q ∈ p.ghostIndex ↔ q ∈ req := by rw [h.gi]; exact (pulling_spec req).2 q

theorem LocalOk.start {lens : List Nat} {req : List Int} {p : PullLocal} (h : LocalOk lens req p)
    (r : Nat) (hr : r ≤ lens.length) :
    p.ghostStart[r]? = some (p.ghostIndex.countP (fun q => decide (q < (before lens r : Int)))) := by
  rw [h.st, plainStarts_get _ _ (by rw [h.sizes_length]; exact hr)]
  congr 1
  have := sum_cnt lens p.ghostIndex (fun q hq => (h.range q ((h.mem q).1 hq)).1) r
  rw [← this, h.sizes, h.gi, ← List.map_take, List.take_range, Nat.min_eq_left hr]

theorem LocalOk.size {lens : List Nat} {req : List Int} {p : PullLocal} (h : LocalOk lens req p)
    (r : Nat) (hr : r < lens.length) : p.ghostSizes[r]? = some (cnt lens p.ghostIndex r) := by
  rw [h.sizes, List.getElem?_map, List.getElem?_range hr, h.gi]; rfl

theorem LocalOk.start_succ {lens : List Nat} {req : List Int} {p : PullLocal} (h : LocalOk lens req p)
    (r b e c : Nat) (hr : r < lens.length) (hb : p.ghostStart[r]? = some b)
    (he : p.ghostStart[r + 1]? = some e) (hc : p.ghostSizes[r]? = some c) : e = b + c := by
  have hl := h.sizes_length
  rw [h.st, plainStarts_get _ _ (by omega)] at hb he
  cases hb; cases he
  obtain ⟨h1, h2⟩ := List.getElem?_eq_some_iff.1 hc
  rw [List.take_succ_eq_append_getElem h1, List.sum_append_nat, h2]
  simp

/-- position `k` of the ghost list is in the block of the rank that owns the entry -/
theorem LocalOk.block {lens : List Nat} {req : List Int} {p : PullLocal} (h : LocalOk lens req p)
    (r b e k : Nat) (x : Int) (hr : r < lens.length) (hb : p.ghostStart[r]? = some b)
    (he : p.ghostStart[r + 1]? = some e) (hx : p.ghostIndex[k]? = some x) :
    (b ≤ k ∧ k < e) ↔ Owns lens r x := by
  rw [h.start r (by omega)] at hb
  rw [h.start (r + 1) (by omega)] at he
  cases hb; cases he
  have h1 := sorted_lt_countP p.ghostIndex h.sorted (before lens r) k x hx
  have h2 := sorted_lt_countP p.ghostIndex h.sorted (before lens (r + 1)) k x hx
  rw [owns_iff lens r hr]
  omega

theorem LocalOk.start_last {lens : List Nat} {req : List Int} {p : PullLocal} (h : LocalOk lens req p) :
    p.ghostStart[lens.length]? = some p.ghostIndex.length := by
  rw [h.start _ (Nat.le_refl _)]
  congr 1
  rw [List.countP_eq_length]
  intro x hx
  have := (h.range x ((h.mem x).1 hx)).2
  simpa [before] using this

theorem LocalOk.start_length {lens : List Nat} {req : List Int} {p : PullLocal} (h : LocalOk lens req p) :
    p.ghostStart.length = lens.length + 1 := by
  rw [h.st, plainStarts_length, h.sizes_length]

theorem LocalOk.start_mono {lens : List Nat} {req : List Int} {p : PullLocal} (h : LocalOk lens req p)
    (i j a b : Nat) (hij : i ≤ j) (ha : p.ghostStart[i]? = some a) (hb : p.ghostStart[j]? = some b) : a ≤ b := by
  have hj : j ≤ lens.length := by
    have := (List.getElem?_eq_some_iff.1 hb).1; rw [h.start_length] at this; omega
  rw [h.start i (by omega)] at ha
  rw [h.start j hj] at hb
  cases ha; cases hb
  apply List.countP_mono_left
  intro x _ hx
  have := before_mono lens hij
  simp only [decide_eq_true_eq] at hx ⊢; omega

end DNDSR.IMap
