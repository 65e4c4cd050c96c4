import Verif.Spec.DirectLU
import Verif.Props.Defines
import Verif.Proof.IndexMapping
import Mathlib.Algebra.BigOperators.Group.List.Basic
import Mathlib.Algebra.Module.BigOperators
import Mathlib.Tactic.Abel
import Mathlib.Tactic.NoncommRing

/-!
# Lemmas for the block factorizations
-/

namespace DNDSR.Direct

open DNDSR.IMap DNDSR.Defines

/-! ### loops -/

theorem foldRes_ok {σ α : Type} (f : σ → α → Res σ) (P : Nat → σ → Prop) (l : List α) (s s' : σ)
    (h0 : P 0 s) (hs : ∀ (t : Nat) (x : α) (a b : σ), l[t]? = some x → P t a → f a x = .ok b → P (t + 1) b)
    (h : foldRes f s l = .ok s') : P l.length s' := by
  suffices H : ∀ (l' : List α) (k : Nat) (a : σ), (∀ t, l'[t]? = l[k + t]?) → l'.length + k = l.length → P k a →
      foldRes f a l' = .ok s' → P l.length s' from
    H l 0 s (by simp) (by simp) h0 h
  intro l'
  induction l' with
  | nil =>
    intro k a _ hl hp hf
    simp only [foldRes, Res.ok.injEq] at hf
    simp only [List.length_nil, Nat.zero_add] at hl
    rw [← hl, ← hf]; exact hp
  | cons x xs ih =>
    intro k a hi hl hp hf
    simp only [foldRes, Res.bind_ok_iff] at hf
    obtain ⟨b, hb, hf⟩ := hf
    have hx : l[k]? = some x := by rw [← Nat.add_zero k, ← hi 0]; rfl
    refine ih (k + 1) b ?_ (by simp only [List.length_cons] at hl; omega) (hs k x a b hx hp hb) hf
    intro t
    have := hi (t + 1)
    rw [List.getElem?_cons_succ] at this
    rw [this]; congr 1; omega

theorem foldRes_total {σ α : Type} (f : σ → α → Res σ) (P : Nat → σ → Prop) (l : List α) (s : σ)
    (h0 : P 0 s) (hs : ∀ (t : Nat) (x : α) (a : σ), l[t]? = some x → P t a → ∃ b, f a x = .ok b ∧ P (t + 1) b) :
    ∃ s', foldRes f s l = .ok s' ∧ P l.length s' := by
  suffices H : ∀ (l' : List α) (k : Nat) (a : σ), (∀ t, l'[t]? = l[k + t]?) → l'.length + k = l.length → P k a →
      ∃ s', foldRes f a l' = .ok s' ∧ P l.length s' from
    H l 0 s (by simp) (by simp) h0
  intro l'
  induction l' with
  | nil =>
    intro k a _ hl hp
    simp only [List.length_nil, Nat.zero_add] at hl
    exact ⟨a, rfl, by rw [← hl]; exact hp⟩
  | cons x xs ih =>
    intro k a hi hl hp
    have hx : l[k]? = some x := by rw [← Nat.add_zero k, ← hi 0]; rfl
    obtain ⟨b, hb, hp'⟩ := hs k x a hx hp
    obtain ⟨s', h1, h2⟩ := ih (k + 1) b (by
      intro t
      have := hi (t + 1)
      rw [List.getElem?_cons_succ] at this
      rw [this]; congr 1; omega) (by simp only [List.length_cons] at hl; omega) hp'
    exact ⟨s', by simp only [foldRes, hb, Res.ok_bind]; exact h1, h2⟩

/-- the outcome of a loop whose steps keep an invariant and never are undefined -/
theorem foldRes_ne_ub {σ α : Type} (f : σ → α → Res σ) (P : Nat → σ → Prop) (l : List α) (s : σ)
    (h0 : P 0 s) (hs : ∀ (t : Nat) (x : α) (a : σ), l[t]? = some x → P t a → f a x ≠ .ub ∧ ∀ b, f a x = .ok b → P (t + 1) b) :
    foldRes f s l ≠ .ub := by
  suffices H : ∀ (l' : List α) (k : Nat) (a : σ), (∀ t, l'[t]? = l[k + t]?) → P k a → foldRes f a l' ≠ .ub from
    H l 0 s (by simp) h0
  intro l'
  induction l' with
  | nil => intro k a _ _; simp [foldRes]
  | cons x xs ih =>
    intro k a hi hp
    have hx : l[k]? = some x := by rw [← Nat.add_zero k, ← hi 0]; rfl
    obtain ⟨h1, h2⟩ := hs k x a hx hp
    intro hc
    simp only [foldRes, Res.bind_ub_iff] at hc
    rcases hc with hc | ⟨b, hb, hc⟩
    · exact h1 hc
    · refine ih (k + 1) b ?_ (h2 b hb) hc
      intro t
      have := hi (t + 1)
      rw [List.getElem?_cons_succ] at this
      rw [this]; congr 1; omega

theorem zipIdx_get {α : Type} (l : List α) (t : Nat) (e : α × Nat) (h : l.zipIdx[t]? = some e) : l[t]? = some e.1 ∧ e.2 = t := by
  rw [List.getElem?_zipIdx] at h
  obtain ⟨x, h1, rfl⟩ := Option.map_eq_some_iff.1 h
  exact ⟨h1, by simp⟩

theorem foldRes_append {σ α : Type} (f : σ → α → Res σ) (l1 l2 : List α) (s : σ) :
    foldRes f s (l1 ++ l2) = (foldRes f s l1 >>= fun s' => foldRes f s' l2) := by
  induction l1 generalizing s with
  | nil => rfl
  | cons x xs ih =>
    simp only [List.cons_append, foldRes]
    cases f s x with
    | ok b => simp only [Res.ok_bind]; exact ih b
    | abort => rfl
    | ub => rfl

/-! ### visiting common entries -/

theorem common_eq {σ : Type} (stop : Int → Bool) (body : Int → Nat → Nat → σ → Res σ) (a b : List Nat) (s : σ)
    (ha : a.Pairwise (· < ·)) (hb : b.Pairwise (· < ·)) (hs : ∀ x ∈ a, x ∈ b → stop x = false) :
    common stop body a b s = foldRes (fun s (v : Int × Nat × Nat) => body v.1 v.2.1 v.2.2 s) s
      (commonVisits (a.map Int.ofNat) (b.map Int.ofNat) 0 0) := by
  have hcast : ∀ l : List Nat, l.Pairwise (· < ·) → StrictAsc (l.map Int.ofNat) := by
    intro l hl
    unfold StrictAsc
    rw [List.pairwise_map]
    exact hl.imp (fun h => by simpa using h)
  have hspec := (commonVisits_spec _ _ (hcast a ha) (hcast b hb)).1
  rw [common, iterateIdentical_visits _ _ _ _ (hcast a ha) (hcast b hb)]
  have hns : ∀ v ∈ commonVisits (a.map Int.ofNat) (b.map Int.ofNat) 0 0, stop v.1 = false := by
    rintro ⟨x, i, j⟩ hv
    obtain ⟨h1, h2⟩ := (hspec x i j).1 hv
    have m1 := List.mem_of_getElem? h1
    have m2 := List.mem_of_getElem? h2
    obtain ⟨y, hy, rfl⟩ := List.mem_map.1 m1
    obtain ⟨z, hz, e⟩ := List.mem_map.1 m2
    have : z = y := by simpa using e
    subst this
    exact hs z hy hz
  generalize commonVisits (a.map Int.ofNat) (b.map Int.ofNat) 0 0 = vs at hns
  have herr : ∀ (vs : List (Int × Nat × Nat)) (e : Res σ), (∀ s, e ≠ .ok s) → (runVisits (visitRes stop body) vs e).1 = e := by
    intro vs e he
    cases vs with
    | nil => rfl
    | cons v vs =>
      cases e with
      | ok s => exact absurd rfl (he s)
      | abort => rfl
      | ub => rfl
  clear hspec
  induction vs generalizing s with
  | nil => rfl
  | cons v vs ih =>
    have hv := hns v (by simp)
    have hvs : ∀ w ∈ vs, stop w.1 = false := fun w hw => hns w (List.mem_cons_of_mem _ hw)
    simp only [runVisits, visitRes, hv, foldRes, Bool.false_eq_true, if_false]
    cases hb : body v.1 v.2.1 v.2.2 s with
    | ok s' => rw [Res.ok_bind]; exact ih s' hvs
    | abort => exact herr vs .abort (by intro s h; cases h)
    | ub => exact herr vs .ub (by intro s h; cases h)

/-- the values visited are the common entries -/
theorem commonVisits_values (a b : List Nat) :
    (commonVisits (a.map Int.ofNat) (b.map Int.ofNat) 0 0).map (fun v => v.1.toNat) = a.filter (fun x => decide (x ∈ b)) := by
  have H : ∀ (a : List Nat) (k : Nat), (((a.map Int.ofNat).zipIdx k).filterMap (fun (ai : Int × Nat) =>
      if ai.1 ∈ b.map Int.ofNat then some (ai.1, 0 + ai.2, 0 + (b.map Int.ofNat).idxOf ai.1) else none)).map
        (fun v => v.1.toNat) = a.filter (fun x => decide (x ∈ b)) := by
    intro a
    induction a with
    | nil => intro k; rfl
    | cons x xs ih =>
      intro k
      have hm : (Int.ofNat x ∈ b.map Int.ofNat) ↔ x ∈ b := by
        rw [List.mem_map]
        constructor
        · rintro ⟨y, hy, e⟩
          have : y = x := by simpa using e
          exact this ▸ hy
        · intro h; exact ⟨x, h, rfl⟩
      by_cases hx : x ∈ b
      · simp only [List.map_cons, List.zipIdx_cons, List.filterMap_cons, hm.2 hx, if_true, List.map_cons, hx,
          List.filter_cons, decide_true, ih]
        rfl
      · have hx' : ¬ (Int.ofNat x ∈ b.map Int.ofNat) := fun h => hx (hm.1 h)
        simp only [List.map_cons, List.zipIdx_cons, List.filterMap_cons, hx', if_false, hx, List.filter_cons, decide_false, ih]
        rfl
  exact H a 0

/-! ### list sums as sums over all indices -/

theorem list_sum_range {A : Type} [AddCommMonoid A] (l : List Nat) (hl : l.Nodup) (n : Nat) (hn : ∀ x ∈ l, x < n) (f : Nat → A) :
    (l.map f).sum = ∑ k ∈ Finset.range n, if k ∈ l then f k else 0 := by
  rw [← List.sum_toFinset f hl, ← Finset.sum_filter]
  apply Finset.sum_congr _ (fun _ _ => rfl)
  ext x
  simp only [List.mem_toFinset, Finset.mem_filter, Finset.mem_range]
  exact ⟨fun h => ⟨hn x h, h⟩, fun h => h.2⟩

theorem zipIdx_map_idxOf {β : Type} (l : List Nat) (hl : l.Nodup) (g : Nat → Nat → β) :
    l.zipIdx.map (fun e => g e.1 e.2) = l.map (fun x => g x (l.idxOf x)) := by
  apply List.ext_getElem?
  intro t
  rw [List.getElem?_map, List.getElem?_map, List.getElem?_zipIdx]
  by_cases ht : t < l.length
  · rw [List.getElem?_eq_getElem ht]
    simp only [Option.map_some, Nat.zero_add]
    rw [hl.idxOf_getElem t ht]
  · rw [List.getElem?_eq_none (by omega)]; rfl

theorem idxOf_get {l : List Nat} (hl : l.Nodup) {p x : Nat} (h : l[p]? = some x) : l.idxOf x = p := by
  obtain ⟨hp, rfl⟩ := List.getElem?_eq_some_iff.1 h
  exact hl.idxOf_getElem p hp

theorem nodup_of_sorted {l : List Nat} (h : l.Pairwise (· < ·)) : l.Nodup :=
  h.imp (fun h => Nat.ne_of_lt h)

/-! ### stores -/

@[simp] theorem upd_self {β : Type} (f : Nat → β) (i : Nat) (v : β) : upd f i v i = v := by simp [upd]
theorem upd_ne {β : Type} (f : Nat → β) {i k : Nat} (v : β) (h : k ≠ i) : upd f i v k = f k := by simp [upd, h]
theorem upd_eq {β : Type} (f : Nat → β) (i : Nat) : upd f i (f i) = f := by
  funext k; unfold upd; split
  · next h => rw [h]
  · rfl
theorem upd_upd {β : Type} (f : Nat → β) (i : Nat) (v w : β) : upd (upd f i v) i w = upd f i w := by
  funext k; unfold upd; split <;> rfl

/-- the reordering as a function -/
structure Perm (S : LUStruct) (σ : Nat → Nat) : Prop where
  app : ∀ i < S.n, reorder S.n2o i = .ok (σ i)
  lt : ∀ i < S.n, σ i < S.n
  inj : ∀ i < S.n, ∀ j < S.n, σ i = σ j → i = j
  surj : ∀ v < S.n, ∃ i < S.n, σ i = v

theorem isReorder_perm {S : LUStruct} (h : IsReorder S.n S.o2n S.n2o) : Perm S (rename S.n2o) := by
  rcases h with ⟨_, h2⟩ | ⟨h1, h2, h3, h4⟩
  · rw [h2]
    refine ⟨?_, ?_, ?_, ?_⟩
    · intro i _; simp [reorder, rename, h2]
    · intro i hi; simpa [rename] using hi
    · intro i _ j _ h; simpa [rename] using h
    · intro v hv; exact ⟨v, hv, by simp [rename]⟩
  · by_cases hn : S.n = 0
    · exact ⟨fun i hi => by omega, fun i hi => by omega, fun i hi => by omega, fun i hi => by omega⟩
    have hne : S.n2o ≠ [] := by intro e; rw [e] at h2; simp at h2; omega
    have hval : ∀ i v, S.n2o[i]? = some v → rename S.n2o i = v := by
      intro i v hv
      rw [rename, if_neg hne, List.getD_eq_getElem?_getD, hv]; rfl
    refine ⟨?_, ?_, ?_, ?_⟩
    · intro i hi
      obtain ⟨v, _, h5, _⟩ := h4 i hi
      rw [reorder, if_neg (by simpa using hne), idx, h5, hval i v h5]
    · intro i hi
      obtain ⟨v, h6, h5, _⟩ := h4 i hi
      rw [hval i v h5]; exact h6
    · intro i hi j hj e
      obtain ⟨v, _, h5, h6⟩ := h4 i hi
      obtain ⟨w, _, h7, h8⟩ := h4 j hj
      rw [hval i v h5, hval j w h7] at e
      subst e
      rw [h6] at h8; exact Option.some.inj h8
    · intro v hv
      obtain ⟨w, h5, _, h6⟩ := h3 v hv
      exact ⟨w, h5, hval w v h6⟩

/-! ### one row -/

section
set_option linter.unusedSectionVars false
variable {R : Type} [Ring R]

theorem foldRes_acc {σ α A : Type} [AddCommGroup A] (f : σ → α → Res σ) (set : A → σ) (term : α → A) (vs : List α)
    (h : ∀ v ∈ vs, ∀ x, f (set x) v = .ok (set (x - term v))) (x : A) :
    foldRes f (set x) vs = .ok (set (x - (vs.map term).sum)) := by
  induction vs generalizing x with
  | nil => simp [foldRes]
  | cons v vs ih =>
    rw [foldRes, h v (by simp) x, Res.ok_bind, ih (fun w hw => h w (List.mem_cons_of_mem _ hw))]
    congr 2
    rw [List.map_cons, List.sum_cons]
    abel

theorem visit_mem {a b : List Nat} (ha : a.Pairwise (· < ·)) (hb : b.Pairwise (· < ·)) {v : Int × Nat × Nat}
    (hv : v ∈ commonVisits (a.map Int.ofNat) (b.map Int.ofNat) 0 0) :
    ∃ k : Nat, v.1 = (k : Int) ∧ a[v.2.1]? = some k ∧ b[v.2.2]? = some k := by
  have hcast : ∀ l : List Nat, l.Pairwise (· < ·) → StrictAsc (l.map Int.ofNat) := by
    intro l hl
    unfold StrictAsc
    rw [List.pairwise_map]
    exact hl.imp (fun h => by simpa using h)
  obtain ⟨x, i, j⟩ := v
  obtain ⟨h1, h2⟩ := ((commonVisits_spec _ _ (hcast a ha) (hcast b hb)).1 x i j).1 hv
  rw [List.getElem?_map] at h1 h2
  obtain ⟨k, h3, rfl⟩ := Option.map_eq_some_iff.1 h1
  obtain ⟨k', h4, e⟩ := Option.map_eq_some_iff.1 h2
  have : k' = k := by simpa using e
  subst this
  exact ⟨k', rfl, h3, h4⟩

/-- `∑ k, L i k * U k j` -/
def tsum (S : LUStruct) (B B' : Blocks R) (i j : Nat) : R := ∑ k ∈ Finset.range S.n, lowBlock S B i k * uppBlock S B' k j

theorem rowOf_get {t : List (List Nat)} {i : Nat} (h : i < t.length) : t[i]? = some (rowOf t i) := by
  rw [rowOf, List.getD_eq_getElem?_getD, List.getElem?_eq_getElem h]; rfl

variable {S : LUStruct} (h : WF S)
include h

theorem WF.perm : Perm S (rename S.n2o) := isReorder_perm h.re

theorem WF.low_idx {i : Nat} (hi : i < S.n) : idx S.low i = .ok (rowOf S.low i) := by
  rw [idx, rowOf_get (by rw [h.lowLen]; exact hi)]

theorem WF.upp_idx {i : Nat} (hi : i < S.n) : idx S.upp i = .ok (rowOf S.upp i) := by
  rw [idx, rowOf_get (by rw [h.uppLen]; exact hi)]

theorem WF.low_lt {i j : Nat} (hi : i < S.n) (hj : j ∈ rowOf S.low i) : j < i ∧ j < S.n := by
  have := h.lowBelow i hi j hj; omega

theorem lowBlock_get (B : Blocks R) {i p j : Nat} (hi : i < S.n) (hp : (rowOf S.low i)[p]? = some j) :
    lowBlock S B i j = B.lower (rename S.n2o i) p := by
  rw [lowBlock, if_pos (List.mem_of_getElem? hp), idxOf_get (nodup_of_sorted (h.lowSorted i hi)) hp]

theorem uppBlock_get (B : Blocks R) {i p j : Nat} (hi : i < S.n) (hp : (rowOf S.upp i)[p]? = some j) :
    uppBlock S B i j = B.upper (rename S.n2o i) p := by
  rw [uppBlock, if_pos (List.mem_of_getElem? hp), idxOf_get (nodup_of_sorted (h.uppSorted i hi)) hp]

omit h in
theorem lowBlock_zero (B : Blocks R) {i j : Nat} (hj : j ∉ rowOf S.low i) : lowBlock S B i j = 0 := by rw [lowBlock, if_neg hj]

omit h in
theorem uppBlock_zero (B : Blocks R) {i j : Nat} (hj : j ∉ rowOf S.upp i) : uppBlock S B i j = 0 := by rw [uppBlock, if_neg hj]

/-- the products over the common entries of two lower rows are the sum over all columns -/
theorem common_sum (B B' : Blocks R) {i j : Nat} (hi : i < S.n) (hj : j < S.n) :
    (((rowOf S.low i).filter (fun x => decide (x ∈ rowOf S.low j))).map (fun k => lowBlock S B i k * uppBlock S B' k j)).sum =
      tsum S B B' i j := by
  rw [list_sum_range _ ((nodup_of_sorted (h.lowSorted i hi)).filter _) S.n
    (fun x hx => (h.low_lt hi (List.mem_filter.1 hx).1).2), tsum]
  apply Finset.sum_congr rfl
  intro k hk
  have hk := Finset.mem_range.1 hk
  split
  · rfl
  · next hn =>
    rw [List.mem_filter, not_and_or] at hn
    rcases hn with hn | hn
    · rw [lowBlock_zero B hn, zero_mul]
    · rw [uppBlock_zero B' (fun hc => hn (by simpa using (h.transposed j hj k hk).2 hc)), mul_zero]

/-- the products along one lower row are the sum over all columns -/
theorem row_sum (B B' : Blocks R) {i : Nat} (hi : i < S.n) :
    ((rowOf S.low i).map (fun k => lowBlock S B i k * uppBlock S B' k i)).sum = tsum S B B' i i := by
  rw [list_sum_range _ (nodup_of_sorted (h.lowSorted i hi)) S.n (fun x hx => (h.low_lt hi hx).2), tsum]
  apply Finset.sum_congr rfl
  intro k _
  split
  · rfl
  · next hn => rw [lowBlock_zero B hn, zero_mul]

omit h in
theorem visits_sum {A : Type} [AddCommMonoid A] (a b : List Nat) (g : Nat → A) :
    ((commonVisits (a.map Int.ofNat) (b.map Int.ofNat) 0 0).map (fun v => g v.1.toNat)).sum =
      ((a.filter (fun x => decide (x ∈ b))).map g).sum := by
  rw [← commonVisits_values, List.map_map]; rfl

/-- the cross position of a lower entry -/
theorem WF.cross {i p k : Nat} (hi : i < S.n) (hp : (rowOf S.low i)[p]? = some k) :
    ∃ r, idx S.lowInUpp i = .ok r ∧ ∃ q : Nat, idx r p = .ok (q : Int) ∧ (rowOf S.upp k)[q]? = some i := by
  obtain ⟨r, h1, h2, h3⟩ := h.lowCross i hi
  obtain ⟨q, h4, h5⟩ := h3 p k hp
  exact ⟨r, by rw [idx, h1], q, by rw [idx, h4], h5⟩

omit h in
theorem setLower_set (B : Blocks R) (i p : Nat) (x y : R) : (B.setLower i p x).setLower i p y = B.setLower i p y := by
  simp only [Blocks.setLower, upd_self, upd_upd]

omit h in
theorem setUpper_set (B : Blocks R) (i p : Nat) (x y : R) : (B.setUpper i p x).setUpper i p y = B.setUpper i p y := by
  simp only [Blocks.setUpper, upd_self, upd_upd]

omit h in
theorem setDiag_set (B : Blocks R) (i : Nat) (x y : R) : (B.setDiag i x).setDiag i y = B.setDiag i y := by
  simp only [Blocks.setDiag, upd_upd]

omit h in
theorem setLower_eq (B : Blocks R) (i p : Nat) : B.setLower i p (B.lower i p) = B := by
  simp only [Blocks.setLower, upd_eq]

omit h in
theorem setUpper_eq (B : Blocks R) (i p : Nat) : B.setUpper i p (B.upper i p) = B := by
  simp only [Blocks.setUpper, upd_eq]

omit h in
theorem setDiag_eq (B : Blocks R) (i : Nat) : B.setDiag i (B.diag i) = B := by
  simp only [Blocks.setDiag, upd_eq]

theorem lower_common (B : Blocks R) {i t j : Nat} (hi : i < S.n) (ht : (rowOf S.low i)[t]? = some j) :
    common (fun kP => decide (kP > (j : Int) - 1)) (lowerBody S (rename S.n2o i) t j) (rowOf S.low i) (rowOf S.low j) B =
      .ok (B.setLower (rename S.n2o i) t (B.lower (rename S.n2o i) t - tsum S B B i j)) := by
  have hjm := List.mem_of_getElem? ht
  obtain ⟨hji, hj⟩ := h.low_lt hi hjm
  rw [common_eq _ _ _ _ _ (h.lowSorted i hi) (h.lowSorted j hj) (by
    intro x _ hx
    have := (h.low_lt hj hx).1
    simp only [decide_eq_false_iff_not]; omega)]
  rw [← common_sum h B B hi hj, ← visits_sum]
  have := foldRes_acc (fun s (v : Int × Nat × Nat) => lowerBody S (rename S.n2o i) t j v.1 v.2.1 v.2.2 s)
    (fun x => B.setLower (rename S.n2o i) t x) (fun v => lowBlock S B i v.1.toNat * uppBlock S B v.1.toNat j)
    (commonVisits ((rowOf S.low i).map Int.ofNat) ((rowOf S.low j).map Int.ofNat) 0 0) (by
      intro v hv x
      obtain ⟨k, e, h1, h2⟩ := visit_mem (h.lowSorted i hi) (h.lowSorted j hj) hv
      have hkj := (h.low_lt hj (List.mem_of_getElem? h2)).1
      obtain ⟨r, c1, q, c2, c3⟩ := h.cross hj h2
      have hk : k < S.n := by omega
      have hpt : v.2.1 ≠ t := by
        intro e'; rw [e', ht] at h1; simp at h1; omega
      rw [e, Int.toNat_natCast, lowBlock_get h B hi h1, uppBlock_get h B hk c3]
      simp only [lowerBody]
      rw [Res.assert_true _ (by omega), Res.ok_bind, Int.toNat_natCast, h.perm.app k hk, Res.ok_bind, c1, Res.ok_bind, c2,
        Res.ok_bind, if_pos (by omega), Int.toNat_natCast, setLower_set]
      simp only [Blocks.setLower, upd_self, upd_ne _ _ hpt]) (B.lower (rename S.n2o i) t)
  rw [setLower_eq] at this
  exact this

theorem tsum_first (B B' : Blocks R) {i j : Nat} (hi : i < S.n) (ht : (rowOf S.low i)[0]? = some j) : tsum S B B' i j = 0 := by
  obtain ⟨hji, hj⟩ := h.low_lt hi (List.mem_of_getElem? ht)
  rw [← common_sum h B B' hi hj]
  have : (rowOf S.low i).filter (fun x => decide (x ∈ rowOf S.low j)) = [] := by
    rw [List.filter_eq_nil_iff]
    intro x hx
    simp only [decide_eq_true_eq]
    intro hc
    have h1 := (h.low_lt hj hc).1
    obtain ⟨p, hp, e⟩ := List.mem_iff_getElem.1 hx
    obtain ⟨h0, e0⟩ := List.getElem?_eq_some_iff.1 ht
    rcases Nat.eq_zero_or_pos p with rfl | hpos
    · omega
    · have := List.pairwise_iff_getElem.1 (h.lowSorted i hi) 0 p h0 hp hpos
      omega
  rw [this]; rfl

theorem lowerEntry_eq (B : Blocks R) {i t j : Nat} (hi : i < S.n) (ht : (rowOf S.low i)[t]? = some j) :
    lowerEntry S i (rename S.n2o i) (rowOf S.low i) B (j, t) =
      .ok (B.setLower (rename S.n2o i) t ((B.lower (rename S.n2o i) t - tsum S B B i j) * diagBlock S B j)) := by
  obtain ⟨hji, hj⟩ := h.low_lt hi (List.mem_of_getElem? ht)
  simp only [lowerEntry]
  rw [Res.assert_true _ hji, Res.ok_bind, h.perm.app j hj, Res.ok_bind]
  by_cases h0 : t > 0
  · rw [if_pos h0, h.low_idx hj, Res.ok_bind, lower_common h B hi ht, Res.ok_bind, setLower_set]
    simp only [Blocks.setLower, upd_self, diagBlock]
  · have : t = 0 := by omega
    subst this
    rw [if_neg h0, Res.ok_bind, tsum_first h B B hi ht, sub_zero]
    rfl

/-- the state of row `i` when `t` of its lower entries are done -/
structure LowerInv (S : LUStruct) (B0 : Blocks R) (i t : Nat) (B : Blocks R) : Prop where
  diag : B.diag = B0.diag
  upper : B.upper = B0.upper
  dec : B.decomposed = B0.decomposed
  other : ∀ r, r ≠ rename S.n2o i → B.lower r = B0.lower r
  rest : ∀ p, t ≤ p → B.lower (rename S.n2o i) p = B0.lower (rename S.n2o i) p
  done : ∀ p j, p < t → (rowOf S.low i)[p]? = some j →
    B.lower (rename S.n2o i) p = (B0.lower (rename S.n2o i) p - tsum S B B0 i j) * diagBlock S B0 j

omit h in
theorem uppBlock_congr {B B' : Blocks R} (e : B.upper = B'.upper) : uppBlock S B = uppBlock S B' := by
  funext i j; simp only [uppBlock, e]

theorem tsum_setLower (B B0 : Blocks R) {i t jt j : Nat} (v : R) (hi : i < S.n) (ht : (rowOf S.low i)[t]? = some jt)
    (hj : j ≤ jt) : tsum S (B.setLower (rename S.n2o i) t v) B0 i j = tsum S B B0 i j := by
  unfold tsum
  apply Finset.sum_congr rfl
  intro k hk
  have hk := Finset.mem_range.1 hk
  by_cases hkm : k ∈ rowOf S.low i
  · obtain ⟨p, hp, e⟩ := List.mem_iff_getElem.1 hkm
    have hpk : (rowOf S.low i)[p]? = some k := by rw [List.getElem?_eq_getElem hp, e]
    by_cases hpt : p = t
    · subst hpt
      have : jt = k := by rw [ht] at hpk; exact Option.some.inj hpk
      subst this
      rw [uppBlock_zero B0 (fun hc => by have := (h.uppAbove jt hk j hc).1; omega), mul_zero, mul_zero]
    · rw [lowBlock_get h _ hi hpk, lowBlock_get h _ hi hpk]
      simp only [Blocks.setLower, upd_self, upd_ne _ _ hpt]
  · rw [lowBlock_zero _ hkm, lowBlock_zero _ hkm]

theorem lower_loop (B0 : Blocks R) {i : Nat} (hi : i < S.n) :
    ∃ B, foldRes (lowerEntry S i (rename S.n2o i) (rowOf S.low i)) B0 (rowOf S.low i).zipIdx = .ok B ∧
      LowerInv S B0 i (rowOf S.low i).length B := by
  have := foldRes_total (lowerEntry S i (rename S.n2o i) (rowOf S.low i)) (LowerInv S B0 i) (rowOf S.low i).zipIdx B0
    ⟨rfl, rfl, rfl, fun _ _ => rfl, fun _ _ => rfl, fun p j hp => by omega⟩ (by
      rintro t ⟨j, t'⟩ B he hB
      obtain ⟨ht, e⟩ := zipIdx_get _ _ _ he
      simp only at ht e
      subst e
      refine ⟨_, lowerEntry_eq h B hi ht, ?_⟩
      have hts : tsum S B B i j = tsum S B B0 i j := by simp only [tsum, uppBlock_congr hB.upper]
      refine ⟨hB.diag, hB.upper, hB.dec, ?_, ?_, ?_⟩
      · intro r hr
        simp only [Blocks.setLower, upd_ne _ _ hr]; exact hB.other r hr
      · intro p hp
        simp only [Blocks.setLower, upd_self]
        rw [upd_ne _ _ (by omega)]; exact hB.rest p (by omega)
      · intro p jp hp hpj
        have hle : jp ≤ j := by
          obtain ⟨a1, a2⟩ := List.getElem?_eq_some_iff.1 hpj
          obtain ⟨b1, b2⟩ := List.getElem?_eq_some_iff.1 ht
          rcases Nat.lt_or_eq_of_le (Nat.lt_succ_iff.1 hp) with hlt | rfl
          · have := List.pairwise_iff_getElem.1 (h.lowSorted i hi) p t' a1 b1 hlt; omega
          · omega
        rw [tsum_setLower h _ _ _ hi ht hle]
        by_cases hpt : p = t'
        · subst hpt
          have : j = jp := by rw [ht] at hpj; exact Option.some.inj hpj
          subst this
          simp only [Blocks.setLower, upd_self]
          rw [hts, hB.rest p (Nat.le_refl _), diagBlock, diagBlock, hB.diag]
        · simp only [Blocks.setLower, upd_self]
          rw [upd_ne _ _ hpt]
          exact hB.done p jp (by omega) hpj)
  rwa [List.length_zipIdx] at this

theorem diag_loop (B : Blocks R) {i : Nat} (hi : i < S.n) :
    foldRes (diagEntry S i (rename S.n2o i)) B (rowOf S.low i).zipIdx =
      .ok (B.setDiag (rename S.n2o i) (diagBlock S B i - tsum S B B i i)) := by
  have := foldRes_acc (diagEntry S i (rename S.n2o i)) (fun x => B.setDiag (rename S.n2o i) x)
    (fun e => (fun (x : Nat) (_ : Nat) => lowBlock S B i x * uppBlock S B x i) e.1 e.2) (rowOf S.low i).zipIdx (by
      rintro ⟨k, p⟩ hv x
      obtain ⟨t, ht⟩ := List.mem_iff_getElem?.1 hv
      obtain ⟨h1, e⟩ := zipIdx_get _ _ _ ht
      simp only at h1 e
      subst e
      obtain ⟨hki, hk⟩ := h.low_lt hi (List.mem_of_getElem? h1)
      obtain ⟨r, c1, q, c2, c3⟩ := h.cross hi h1
      simp only [diagEntry]
      rw [lowBlock_get h B hi h1, uppBlock_get h B hk c3, h.perm.app k hk, Res.ok_bind, c1, Res.ok_bind, c2, Res.ok_bind,
        if_pos (by omega), Int.toNat_natCast, setDiag_set]
      simp only [Blocks.setDiag, upd_self]) (B.diag (rename S.n2o i))
  rw [setDiag_eq, zipIdx_map_idxOf _ (nodup_of_sorted (h.lowSorted i hi)) (fun x _ => lowBlock S B i x * uppBlock S B x i),
    row_sum h B B hi] at this
  exact this

theorem tsum_setUpper (B : Blocks R) {i t : Nat} (x : R) (hi : i < S.n) (j : Nat) :
    tsum S (B.setUpper (rename S.n2o i) t x) (B.setUpper (rename S.n2o i) t x) i j = tsum S B B i j := by
  unfold tsum
  apply Finset.sum_congr rfl
  intro k hk
  have hk := Finset.mem_range.1 hk
  have e : lowBlock S (B.setUpper (rename S.n2o i) t x) i k = lowBlock S B i k := rfl
  rw [e]
  by_cases hkm : k ∈ rowOf S.low i
  · have hne : rename S.n2o k ≠ rename S.n2o i := by
      intro hc
      have := h.perm.inj k hk i hi hc
      have := (h.low_lt hi hkm).1
      omega
    congr 1
    simp only [uppBlock, Blocks.setUpper, upd_ne _ _ hne]
  · rw [lowBlock_zero _ hkm, zero_mul, zero_mul]

theorem upper_common (B : Blocks R) {i t j : Nat} (hi : i < S.n) (ht : (rowOf S.upp i)[t]? = some j) :
    upperEntry S i (rename S.n2o i) (rowOf S.low i) B (j, t) =
      .ok (B.setUpper (rename S.n2o i) t (B.upper (rename S.n2o i) t - tsum S B B i j)) := by
  obtain ⟨hij, hj⟩ := h.uppAbove i hi j (List.mem_of_getElem? ht)
  simp only [upperEntry]
  rw [Res.assert_true _ hij, Res.ok_bind, h.perm.app j hj, Res.ok_bind, h.low_idx hj, Res.ok_bind]
  rw [common_eq _ _ _ _ _ (h.lowSorted i hi) (h.lowSorted j hj) (by
    intro x hx _
    have := (h.low_lt hi hx).1
    simp only [decide_eq_false_iff_not]; omega)]
  rw [← common_sum h B B hi hj, ← visits_sum]
  have := foldRes_acc (fun s (v : Int × Nat × Nat) => upperBody S (rename S.n2o i) t j v.1 v.2.1 v.2.2 s)
    (fun x => B.setUpper (rename S.n2o i) t x) (fun v => lowBlock S B i v.1.toNat * uppBlock S B v.1.toNat j)
    (commonVisits ((rowOf S.low i).map Int.ofNat) ((rowOf S.low j).map Int.ofNat) 0 0) (by
      intro v hv x
      obtain ⟨k, e, h1, h2⟩ := visit_mem (h.lowSorted i hi) (h.lowSorted j hj) hv
      have hki := (h.low_lt hi (List.mem_of_getElem? h1)).1
      obtain ⟨r, c1, q, c2, c3⟩ := h.cross hj h2
      have hk : k < S.n := by omega
      have hne : rename S.n2o k ≠ rename S.n2o i := by
        intro hc
        have := h.perm.inj k hk i hi hc
        omega
      rw [e, Int.toNat_natCast, lowBlock_get h B hi h1, uppBlock_get h B hk c3]
      simp only [upperBody]
      rw [Res.assert_true _ (by omega), Res.ok_bind, Int.toNat_natCast, h.perm.app k hk, Res.ok_bind, c1, Res.ok_bind, c2,
        Res.ok_bind, if_pos (by omega), Int.toNat_natCast, setUpper_set]
      simp only [Blocks.setUpper, upd_self, upd_ne _ _ hne]) (B.upper (rename S.n2o i) t)
  rw [setUpper_eq] at this
  exact this

/-- the state of row `i` when `t` of its upper entries are done -/
structure UpperInv (S : LUStruct) (B0 : Blocks R) (i t : Nat) (B : Blocks R) : Prop where
  diag : B.diag = B0.diag
  lower : B.lower = B0.lower
  dec : B.decomposed = B0.decomposed
  other : ∀ r, r ≠ rename S.n2o i → B.upper r = B0.upper r
  rest : ∀ p, t ≤ p → B.upper (rename S.n2o i) p = B0.upper (rename S.n2o i) p
  done : ∀ p j, p < t → (rowOf S.upp i)[p]? = some j →
    B.upper (rename S.n2o i) p = B0.upper (rename S.n2o i) p - tsum S B0 B0 i j
  sums : ∀ j, tsum S B B i j = tsum S B0 B0 i j

theorem upper_loop (B0 : Blocks R) {i : Nat} (hi : i < S.n) :
    ∃ B, foldRes (upperEntry S i (rename S.n2o i) (rowOf S.low i)) B0 (rowOf S.upp i).zipIdx = .ok B ∧
      UpperInv S B0 i (rowOf S.upp i).length B := by
  have := foldRes_total (upperEntry S i (rename S.n2o i) (rowOf S.low i)) (UpperInv S B0 i) (rowOf S.upp i).zipIdx B0
    ⟨rfl, rfl, rfl, fun _ _ => rfl, fun _ _ => rfl, fun p j hp => by omega, fun _ => rfl⟩ (by
      rintro t ⟨j, t'⟩ B he hB
      obtain ⟨ht, e⟩ := zipIdx_get _ _ _ he
      simp only at ht e
      subst e
      refine ⟨_, upper_common h B hi ht, hB.diag, hB.lower, hB.dec, ?_, ?_, ?_, ?_⟩
      · intro r hr
        simp only [Blocks.setUpper, upd_ne _ _ hr]; exact hB.other r hr
      · intro p hp
        simp only [Blocks.setUpper, upd_self]
        rw [upd_ne _ _ (by omega)]; exact hB.rest p (by omega)
      · intro p jp hp hpj
        simp only [Blocks.setUpper, upd_self]
        by_cases hpt : p = t'
        · subst hpt
          have : j = jp := by rw [ht] at hpj; exact Option.some.inj hpj
          subst this
          rw [upd_self, hB.sums, hB.rest p (Nat.le_refl _)]
        · rw [upd_ne _ _ hpt]
          exact hB.done p jp (by omega) hpj
      · intro jj
        rw [tsum_setUpper h B _ hi]; exact hB.sums jj)
  rwa [List.length_zipIdx] at this

/-- what processing row `i` does -/
structure RowDone (inv : R → Option R) (S : LUStruct) (B0 : Blocks R) (i : Nat) (B : Blocks R) : Prop where
  dec : B.decomposed = B0.decomposed
  otherD : ∀ r, r ≠ rename S.n2o i → B.diag r = B0.diag r
  otherL : ∀ r, r ≠ rename S.n2o i → B.lower r = B0.lower r
  otherU : ∀ r, r ≠ rename S.n2o i → B.upper r = B0.upper r
  low : ∀ j ∈ rowOf S.low i, lowBlock S B i j = (lowBlock S B0 i j - tsum S B B0 i j) * diagBlock S B0 j
  diag : inv (diagBlock S B0 i - tsum S B B0 i i) = some (diagBlock S B i)
  upp : ∀ j ∈ rowOf S.upp i, uppBlock S B i j = uppBlock S B0 i j - tsum S B B0 i j

/-- the state in which row `i` stops: its lower entries are done and its pivot is rejected -/
def RowStop (inv : R → Option R) (S : LUStruct) (B0 : Blocks R) (i : Nat) : Prop :=
  ∃ X : Blocks R, (∀ j ∈ rowOf S.low i, lowBlock S X i j = (lowBlock S B0 i j - tsum S X B0 i j) * diagBlock S B0 j) ∧
    inv (diagBlock S B0 i - tsum S X B0 i i) = none

theorem decomposeRow_eq (inv : R → Option R) (B0 : Blocks R) {i : Nat} (hi : i < S.n) :
    decomposeRow inv S B0 i ≠ .ub ∧ (∀ B, decomposeRow inv S B0 i = .ok B → RowDone inv S B0 i B) ∧
      (decomposeRow inv S B0 i = .abort → RowStop inv S B0 i) := by
  obtain ⟨B1, e1, l1⟩ := lower_loop h B0 hi
  simp only [decomposeRow, h.perm.app i hi, Res.ok_bind, h.low_idx hi, e1, diag_loop h B1 hi, h.upp_idx hi]
  generalize hB2 : B1.setDiag (rename S.n2o i) (diagBlock S B1 i - tsum S B1 B1 i i) = B2
  have hd2 : B2.diag (rename S.n2o i) = diagBlock S B1 i - tsum S B1 B1 i i := by
    rw [← hB2]; simp only [Blocks.setDiag, upd_self]
  cases hinv : inv (B2.diag (rename S.n2o i)) with
  | none =>
    refine ⟨by simp, fun B hB => by simp at hB, fun _ => ⟨B1, ?_, ?_⟩⟩
    · intro j hj
      obtain ⟨p, hp, e⟩ := List.mem_iff_getElem.1 hj
      have hpj : (rowOf S.low i)[p]? = some j := by rw [List.getElem?_eq_getElem hp, e]
      rw [lowBlock_get h _ hi hpj, lowBlock_get h _ hi hpj]
      exact l1.done p j hp hpj
    · rw [hd2] at hinv
      have hts1 : tsum S B1 B1 i i = tsum S B1 B0 i i := by simp only [tsum, uppBlock_congr l1.upper]
      rw [hts1, diagBlock, l1.diag] at hinv
      exact hinv
  | some w =>
    simp only [Res.ok_bind]
    generalize hB3 : B2.setDiag (rename S.n2o i) w = B3
    obtain ⟨B4, e4, l4⟩ := upper_loop h B3 hi
    rw [e4]
    refine ⟨by simp, fun B hB => ?_, fun hB => by simp at hB⟩
    cases hB
    have hl3 : B3.lower = B1.lower := by rw [← hB3, ← hB2]; rfl
    have hu3 : B3.upper = B0.upper := by rw [← hB3, ← hB2]; exact l1.upper
    have hlb : lowBlock S B4 = lowBlock S B1 := by funext a b; simp only [lowBlock, l4.lower, hl3]
    have hts : ∀ j, tsum S B4 B0 i j = tsum S B1 B0 i j := by intro j; simp only [tsum, hlb]
    have hts3 : ∀ j, tsum S B3 B3 i j = tsum S B1 B0 i j := by
      intro j
      simp only [tsum, uppBlock_congr hu3]
      have : lowBlock S B3 = lowBlock S B1 := by funext a b; simp only [lowBlock, hl3]
      rw [this]
    have hts1 : ∀ j, tsum S B1 B1 i j = tsum S B1 B0 i j := by
      intro j; simp only [tsum, uppBlock_congr l1.upper]
    refine ⟨?_, ?_, ?_, ?_, ?_, ?_, ?_⟩
    · rw [l4.dec, ← hB3, ← hB2]; exact l1.dec
    · intro r hr
      rw [l4.diag, ← hB3, ← hB2]
      simp only [Blocks.setDiag, upd_ne _ _ hr, l1.diag]
    · intro r hr
      rw [l4.lower, hl3, l1.other r hr]
    · intro r hr
      rw [l4.other r hr, hu3]
    · intro j hj
      obtain ⟨p, hp, e⟩ := List.mem_iff_getElem.1 hj
      have hpj : (rowOf S.low i)[p]? = some j := by rw [List.getElem?_eq_getElem hp, e]
      rw [hts, hlb, lowBlock_get h _ hi hpj, lowBlock_get h _ hi hpj]
      exact l1.done p j hp hpj
    · rw [hd2] at hinv
      rw [hts, ← hts1, diagBlock, diagBlock, l4.diag, ← hB3]
      simp only [Blocks.setDiag, upd_self]
      rw [diagBlock, l1.diag] at hinv
      exact hinv
    · intro j hj
      obtain ⟨p, hp, e⟩ := List.mem_iff_getElem.1 hj
      have hpj : (rowOf S.upp i)[p]? = some j := by rw [List.getElem?_eq_getElem hp, e]
      rw [hts, ← hts3, uppBlock_get h _ hi hpj, uppBlock_get h _ hi hpj, l4.done p j hp hpj, hu3]

/-! ### all rows -/

theorem lowBlock_self (B : Blocks R) {i : Nat} (hi : i < S.n) : lowBlock S B i i = 0 :=
  lowBlock_zero B (fun hc => by have := (h.low_lt hi hc).1; omega)

theorem uppBlock_self (B : Blocks R) {i : Nat} (hi : i < S.n) : uppBlock S B i i = 0 :=
  uppBlock_zero B (fun hc => by have := (h.uppAbove i hi i hc).1; omega)

theorem tsum_frame (X B B' : Blocks R) {i : Nat} (hi : i < S.n) (hu : ∀ k < i, uppBlock S B k = uppBlock S B' k) (j : Nat) :
    tsum S X B i j = tsum S X B' i j := by
  unfold tsum
  apply Finset.sum_congr rfl
  intro k _
  by_cases hk : k ∈ rowOf S.low i
  · rw [hu k (h.low_lt hi hk).1]
  · rw [lowBlock_zero _ hk, zero_mul, zero_mul]

/-- the equations row `i` of the factors satisfies -/
structure RowEq (inv : R → Option R) (S : LUStruct) (B0 B : Blocks R) (i : Nat) : Prop where
  low : ∀ j ∈ rowOf S.low i, lowBlock S B i j = (lowBlock S B0 i j - tsum S B B i j) * diagBlock S B j
  diag : inv (diagBlock S B0 i - tsum S B B i i) = some (diagBlock S B i)
  upp : ∀ j ∈ rowOf S.upp i, uppBlock S B i j = uppBlock S B0 i j - tsum S B B i j

/-- the state when `t` rows are done -/
structure AllInv (inv : R → Option R) (S : LUStruct) (B0 : Blocks R) (t : Nat) (B : Blocks R) : Prop where
  dec : B.decomposed = B0.decomposed
  restD : ∀ i < S.n, t ≤ i → diagBlock S B i = diagBlock S B0 i
  restL : ∀ i < S.n, t ≤ i → lowBlock S B i = lowBlock S B0 i
  restU : ∀ i < S.n, t ≤ i → uppBlock S B i = uppBlock S B0 i
  done : ∀ i < S.n, i < t → RowEq inv S B0 B i

theorem allInv_step (inv : R → Option R) {B0 B B' : Blocks R} {t : Nat} (ht : t < S.n) (hB : AllInv inv S B0 t B)
    (hR : RowDone inv S B t B') : AllInv inv S B0 (t + 1) B' := by
  have hne : ∀ i < S.n, i ≠ t → rename S.n2o i ≠ rename S.n2o t := fun i hi hit hc => hit (h.perm.inj i hi t ht hc)
  have fd : ∀ i < S.n, i ≠ t → diagBlock S B' i = diagBlock S B i := fun i hi hit => by
    simp only [diagBlock, hR.otherD _ (hne i hi hit)]
  have fl : ∀ i < S.n, i ≠ t → lowBlock S B' i = lowBlock S B i := fun i hi hit => by
    funext j; simp only [lowBlock, hR.otherL _ (hne i hi hit)]
  have fu : ∀ i < S.n, i ≠ t → uppBlock S B' i = uppBlock S B i := fun i hi hit => by
    funext j; simp only [uppBlock, hR.otherU _ (hne i hi hit)]
  refine ⟨hR.dec.trans hB.dec, ?_, ?_, ?_, ?_⟩
  · intro i hi hit; rw [fd i hi (by omega)]; exact hB.restD i hi (by omega)
  · intro i hi hit; rw [fl i hi (by omega)]; exact hB.restL i hi (by omega)
  · intro i hi hit; rw [fu i hi (by omega)]; exact hB.restU i hi (by omega)
  · intro i hi hit
    by_cases hc : i = t
    · subst hc
      have hts : ∀ j, tsum S B' B i j = tsum S B' B' i j := fun j =>
        tsum_frame h B' B B' hi (fun k hk => (fu k (by omega) (by omega)).symm) j
      refine ⟨?_, ?_, ?_⟩
      · intro j hj
        have hji := (h.low_lt hi hj).1
        rw [hR.low j hj, hts, hB.restL i hi (Nat.le_refl _), fd j (by omega) (by omega)]
      · have := hR.diag
        rwa [hts, hB.restD i hi (Nat.le_refl _)] at this
      · intro j hj
        rw [hR.upp j hj, hts, hB.restU i hi (Nat.le_refl _)]
    · have hlt : i < t := by omega
      have hd := hB.done i hi hlt
      have hts : ∀ j, tsum S B' B' i j = tsum S B B i j := fun j => by
        rw [tsum_frame h B' B' B hi (fun k hk => fu k (by omega) (by omega)) j]
        simp only [tsum, fl i hi hc]
      refine ⟨?_, ?_, ?_⟩
      · intro j hj
        have hji := (h.low_lt hi hj).1
        rw [fl i hi hc, hd.low j hj, hts, fd j (by omega) (by omega)]
      · rw [hts, fd i hi hc]; exact hd.diag
      · intro j hj
        rw [fu i hi hc, hd.upp j hj, hts]

theorem allInv_zero (inv : R → Option R) (B0 : Blocks R) : AllInv inv S B0 0 B0 :=
  ⟨rfl, fun _ _ _ => rfl, fun _ _ _ => rfl, fun _ _ _ => rfl, fun i _ hi => by omega⟩

theorem range_get {n t x : Nat} (hx : (List.range n)[t]? = some x) : x = t ∧ t < n := by
  obtain ⟨h1, h2⟩ := List.getElem?_eq_some_iff.1 hx
  rw [List.getElem_range] at h2
  rw [List.length_range] at h1
  exact ⟨h2.symm, h1⟩

theorem decompose_spec (inv : R → Option R) (B0 : Blocks R) :
    decompose inv S B0 ≠ .ub ∧ ∀ B, decompose inv S B0 = .ok B → B.decomposed = true ∧ ∀ i < S.n, RowEq inv S B0 B i := by
  constructor
  · intro hc
    simp only [decompose, Res.bind_ub_iff] at hc
    rcases hc with hc | ⟨B, _, hc⟩
    · refine foldRes_ne_ub _ (AllInv inv S B0) _ B0 (allInv_zero h inv B0) ?_ hc
      intro t x a hx ha
      obtain ⟨rfl, ht⟩ := range_get h hx
      obtain ⟨h1, h2, _⟩ := decomposeRow_eq h inv a ht
      exact ⟨h1, fun b hb => allInv_step h inv ht ha (h2 b hb)⟩
    · cases hc
  · intro B hB
    simp only [decompose, Res.bind_ok_iff, Res.ok.injEq] at hB
    obtain ⟨B1, h1, rfl⟩ := hB
    have := foldRes_ok _ (AllInv inv S B0) _ B0 B1 (allInv_zero h inv B0) (by
      intro t x a b hx ha hb
      obtain ⟨rfl, ht⟩ := range_get h hx
      exact allInv_step h inv ht ha ((decomposeRow_eq h inv a ht).2.1 b hb)) h1
    rw [List.length_range] at this
    refine ⟨rfl, fun i hi => ?_⟩
    exact ⟨(this.done i hi hi).low, (this.done i hi hi).diag, (this.done i hi hi).upp⟩

theorem prod_eq (B : Blocks R) (v : Nat → R) {i j : Nat} (hi : i < S.n) (hj : j < S.n) :
    (∑ k ∈ Finset.range S.n, factorL S B i k * factorU S B v k j) =
      tsum S B B i j + lowBlock S B i j * v j + uppBlock S B i j + (if i = j then v i else 0) := by
  have h1 : ∀ k ∈ Finset.range S.n, factorL S B i k * factorU S B v k j =
      lowBlock S B i k * uppBlock S B k j + (if k = j then lowBlock S B i k * v k else 0) +
        (if k = i then uppBlock S B k j else 0) + (if k = i then (if i = j then v i else 0) else 0) := by
    intro k hk
    have hk := Finset.mem_range.1 hk
    unfold factorL factorU
    by_cases h1 : i = k
    · subst h1
      rw [if_pos rfl, if_pos rfl, if_pos rfl, lowBlock_self h B hi]
      by_cases h2 : i = j
      · subst h2
        simp [uppBlock_self h B hi]
      · simp [h2]
    · rw [if_neg h1, if_neg (Ne.symm h1), if_neg (Ne.symm h1)]
      by_cases h2 : k = j
      · subst h2
        simp [uppBlock_self h B hk]
      · simp [h2]
  rw [Finset.sum_congr rfl h1, Finset.sum_add_distrib, Finset.sum_add_distrib, Finset.sum_add_distrib,
    Finset.sum_ite_eq', Finset.sum_ite_eq', Finset.sum_ite_eq', if_pos (Finset.mem_range.2 hj),
    if_pos (Finset.mem_range.2 hi), if_pos (Finset.mem_range.2 hi)]
  rfl

/-- pivots of the decomposition -/
def pivot (S : LUStruct) (B0 B : Blocks R) (i : Nat) : R := diagBlock S B0 i - tsum S B B i i

theorem product_on_pattern (inv : R → Option R) (hinv : Inverts inv) (B0 B : Blocks R)
    (hr : ∀ i < S.n, RowEq inv S B0 B i) {i j : Nat} (hi : i < S.n) (hj : j < S.n) (hp : InPattern S i j) :
    (∑ k ∈ Finset.range S.n, factorL S B i k * factorU S B (pivot S B0 B) k j) = matBlock S B0 i j := by
  rw [prod_eq h B _ hi hj, matBlock]
  rcases hp with rfl | hp | hp
  · rw [if_pos rfl, if_pos rfl, lowBlock_self h B hi, uppBlock_self h B hi, pivot]
    noncomm_ring
  · have hji := (h.low_lt hi hp).1
    rw [if_neg (by omega), if_neg (by omega), uppBlock_zero B (fun hc => by have := (h.uppAbove i hi j hc).1; omega),
      uppBlock_zero B0 (fun hc => by have := (h.uppAbove i hi j hc).1; omega)]
    have h1 := (hinv _ _ (hr j hj).diag).2
    rw [(hr i hi).low j hp, mul_assoc]
    change _ + _ * (diagBlock S B j * (diagBlock S B0 j - tsum S B B j j)) + 0 + 0 = _
    rw [h1, mul_one]; abel
  · have hij := (h.uppAbove i hi j hp).1
    rw [if_neg (by omega), if_neg (by omega), lowBlock_zero B (fun hc => by have := (h.low_lt hi hc).1; omega),
      lowBlock_zero B0 (fun hc => by have := (h.low_lt hi hc).1; omega), (hr i hi).upp j hp]
    noncomm_ring

theorem product_off_pattern (hc : Closed S) (B : Blocks R) (v : Nat → R) {i j : Nat} (hi : i < S.n) (hj : j < S.n)
    (hp : ¬ InPattern S i j) : (∑ k ∈ Finset.range S.n, factorL S B i k * factorU S B v k j) = 0 := by
  have hne : i ≠ j := fun e => hp (Or.inl e)
  have hl : j ∉ rowOf S.low i := fun e => hp (Or.inr (Or.inl e))
  have hu : j ∉ rowOf S.upp i := fun e => hp (Or.inr (Or.inr e))
  rw [prod_eq h B v hi hj, lowBlock_zero B hl, uppBlock_zero B hu, if_neg hne]
  have : tsum S B B i j = 0 := by
    unfold tsum
    apply Finset.sum_eq_zero
    intro k hk
    have hk := Finset.mem_range.1 hk
    by_cases h1 : k ∈ rowOf S.low i
    · by_cases h2 : j ∈ rowOf S.upp k
      · exfalso
        have h3 := (h.transposed i hi k hk).1 h1
        rcases Nat.lt_or_gt_of_ne hne with hlt | hgt
        · exact hu (hc k hk i h3 j h2 hlt)
        · exact hl ((h.transposed i hi j hj).2 (hc k hk j h2 i h3 hgt))
      · rw [uppBlock_zero B h2, mul_zero]
    · rw [lowBlock_zero B h1, zero_mul]
  rw [this]; simp

theorem matBlock_off (B : Blocks R) {i j : Nat} (hp : ¬ InPattern S i j) : matBlock S B i j = 0 := by
  rw [matBlock, if_neg (fun e => hp (Or.inl e)), lowBlock_zero B (fun e => hp (Or.inr (Or.inl e))),
    uppBlock_zero B (fun e => hp (Or.inr (Or.inr e))), add_zero]

/-! ### a matrix with a factorization is factorized -/

omit h in
theorem prod_expand (n : Nat) (lo up : Nat → Nat → R) (v : Nat → R) {i j : Nat} (hi : i < n) (hj : j < n)
    (hl : lo i i = 0) (hu : ∀ k < n, up k k = 0) :
    (∑ k ∈ Finset.range n, (if i = k then 1 else lo i k) * (if k = j then v k else up k j)) =
      (∑ k ∈ Finset.range n, lo i k * up k j) + lo i j * v j + up i j + (if i = j then v i else 0) := by
  have h1 : ∀ k ∈ Finset.range n, (if i = k then 1 else lo i k) * (if k = j then v k else up k j) =
      lo i k * up k j + (if k = j then lo i k * v k else 0) +
        (if k = i then up k j else 0) + (if k = i then (if i = j then v i else 0) else 0) := by
    intro k hk
    have hk := Finset.mem_range.1 hk
    by_cases h1 : i = k
    · subst h1
      rw [if_pos rfl, if_pos rfl, if_pos rfl, hl]
      by_cases h2 : i = j
      · subst h2
        simp [hu i hi]
      · simp [h2]
    · rw [if_neg h1, if_neg (Ne.symm h1), if_neg (Ne.symm h1)]
      by_cases h2 : k = j
      · subst h2
        simp [hu k hk]
      · simp [h2]
  rw [Finset.sum_congr rfl h1, Finset.sum_add_distrib, Finset.sum_add_distrib, Finset.sum_add_distrib,
    Finset.sum_ite_eq', Finset.sum_ite_eq', Finset.sum_ite_eq', if_pos (Finset.mem_range.2 hj),
    if_pos (Finset.mem_range.2 hi), if_pos (Finset.mem_range.2 hi)]

/-- row `i` of the lower factor is determined by the rows before it -/
theorem low_unique {inv : R → Option R} (hinv : Inverts inv) {B0 B X : Blocks R} {lo up : Nat → Nat → R} {v : Nat → R}
    (hf : HasLU inv S B0 lo up v) {i : Nat} (hi : i < S.n) (hA : ∀ j, lowBlock S B i j = lowBlock S B0 i j)
    (hu : ∀ k < i, uppBlock S B k = up k) (hd : ∀ k < i, inv (v k) = some (diagBlock S B k))
    (hX : ∀ j ∈ rowOf S.low i, lowBlock S X i j = (lowBlock S B i j - tsum S X B i j) * diagBlock S B j) :
    ∀ j, lowBlock S X i j = lo i j := by
  have hlo : ∀ k, k ∉ rowOf S.low i → lo i k = 0 := hf.low i hi
  have hnl : lo i i = 0 := hlo i (fun hc => by have := (h.low_lt hi hc).1; omega)
  have hnu : ∀ k < S.n, up k k = 0 := fun k hk => hf.upp k hk k (fun hc => by have := (h.uppAbove k hk k hc).1; omega)
  intro j
  induction j using Nat.strongRecOn with
  | _ j ih =>
    by_cases hj : j ∈ rowOf S.low i
    · obtain ⟨hji, hjn⟩ := h.low_lt hi hj
      have hts : tsum S X B i j = ∑ k ∈ Finset.range S.n, lo i k * up k j := by
        unfold tsum
        apply Finset.sum_congr rfl
        intro k hk
        have hk := Finset.mem_range.1 hk
        by_cases hki : k ∈ rowOf S.low i
        · have hki' := (h.low_lt hi hki).1
          rw [hu k hki']
          by_cases hjk : j ∈ rowOf S.upp k
          · rw [ih k (h.uppAbove k hk j hjk).1]
          · rw [hf.upp k hk j hjk, mul_zero, mul_zero]
        · rw [lowBlock_zero X hki, hlo k hki, zero_mul, zero_mul]
      have hp := hf.prod i hi j hjn (Or.inr (Or.inl hj))
      have hui : up i j = 0 := hf.upp i hi j (fun hc => by have := (h.uppAbove i hi j hc).1; omega)
      rw [prod_expand S.n lo up v hi hjn hnl hnu, if_neg (by omega), hui, matBlock, if_neg (by omega),
        uppBlock_zero B0 (fun hc => by have := (h.uppAbove i hi j hc).1; omega), add_zero, add_zero, add_zero] at hp
      rw [hX j hj, hA, hts, ← hp, add_sub_cancel_left, mul_assoc, (hinv _ _ (hd j hji)).1, mul_one]
    · rw [lowBlock_zero X hj, hlo j hj]

theorem decompose_total {inv : R → Option R} (hinv : Inverts inv) {B0 : Blocks R} {lo up : Nat → Nat → R} {v : Nat → R}
    (hf : HasLU inv S B0 lo up v) :
    ∃ B, decompose inv S B0 = .ok B ∧ ∀ i < S.n, lowBlock S B i = lo i ∧ uppBlock S B i = up i ∧ inv (v i) = some (diagBlock S B i) := by
  have hnl : ∀ i < S.n, lo i i = 0 := fun i hi => hf.low i hi i (fun hc => by have := (h.low_lt hi hc).1; omega)
  have hnu : ∀ k < S.n, up k k = 0 := fun k hk => hf.upp k hk k (fun hc => by have := (h.uppAbove k hk k hc).1; omega)
  obtain ⟨B, h1, h2, h3⟩ := foldRes_total (decomposeRow inv S)
    (fun t B => AllInv inv S B0 t B ∧ ∀ i < S.n, i < t → lowBlock S B i = lo i ∧ uppBlock S B i = up i ∧
      inv (v i) = some (diagBlock S B i)) (List.range S.n) B0 ⟨allInv_zero h inv B0, fun i _ hi => by omega⟩ (by
      rintro t x B hx ⟨hB, hdone⟩
      obtain ⟨rfl, ht⟩ := range_get h hx
      obtain ⟨h1, h2, h3⟩ := decomposeRow_eq h inv B ht
      have hun : ∀ X : Blocks R, (∀ j ∈ rowOf S.low x, lowBlock S X x j = (lowBlock S B x j - tsum S X B x j) * diagBlock S B j) →
          (∀ j, lowBlock S X x j = lo x j) ∧ ∀ j, tsum S X B x j = ∑ k ∈ Finset.range S.n, lo x k * up k j := by
        intro X hX
        have h1 := low_unique h hinv hf ht (fun j => by rw [hB.restL x ht (Nat.le_refl _)])
          (fun k hk => (hdone k (by omega) hk).2.1) (fun k hk => (hdone k (by omega) hk).2.2) hX
        refine ⟨h1, fun j => ?_⟩
        unfold tsum
        apply Finset.sum_congr rfl
        intro k hk
        rw [h1]
        by_cases hki : k ∈ rowOf S.low x
        · rw [(hdone k (Finset.mem_range.1 hk) (h.low_lt ht hki).1).2.1]
        · rw [hf.low x ht k hki, zero_mul, zero_mul]
      have hpiv : diagBlock S B x - ∑ k ∈ Finset.range S.n, lo x k * up k x = v x := by
        have hp := hf.prod x ht x ht (Or.inl rfl)
        rw [prod_expand S.n lo up v ht ht (hnl x ht) hnu, if_pos rfl, hnl x ht, hnu x ht, matBlock, if_pos rfl, zero_mul, add_zero,
          add_zero] at hp
        rw [hB.restD x ht (Nat.le_refl _), ← hp, add_sub_cancel_left]
      cases hr : decomposeRow inv S B x with
      | ub => exact absurd hr h1
      | abort =>
        obtain ⟨X, hX, hn⟩ := h3 hr
        rw [(hun X hX).2, hpiv] at hn
        exact absurd hn (hf.piv x ht)
      | ok B' =>
        have hR := h2 B' hr
        refine ⟨B', rfl, allInv_step h inv ht hB hR, ?_⟩
        have hne : ∀ k < S.n, k ≠ x → rename S.n2o k ≠ rename S.n2o x := fun k hk hkx hc => hkx (h.perm.inj k hk x ht hc)
        intro i hi hix
        by_cases hc : i = x
        · subst hc
          obtain ⟨u1, u2⟩ := hun B' hR.low
          refine ⟨funext u1, ?_, ?_⟩
          · funext j
            by_cases hj : j ∈ rowOf S.upp i
            · obtain ⟨hij, hjn⟩ := h.uppAbove i hi j hj
              have hp := hf.prod i hi j hjn (Or.inr (Or.inr hj))
              rw [prod_expand S.n lo up v hi hjn (hnl i hi) hnu, if_neg (by omega), matBlock, if_neg (by omega),
                hf.low i hi j (fun hc => by have := (h.low_lt hi hc).1; omega),
                lowBlock_zero B0 (fun hc => by have := (h.low_lt hi hc).1; omega), zero_mul, add_zero, add_zero, zero_add] at hp
              rw [hR.upp j hj, u2, hB.restU i hi (Nat.le_refl _), ← hp, add_sub_cancel_left]
            · rw [uppBlock_zero B' hj, hf.upp i hi j hj]
          · have := hR.diag
            rwa [u2, hpiv] at this
        · obtain ⟨a, b, c⟩ := hdone i hi (by omega)
          refine ⟨?_, ?_, ?_⟩
          · rw [← a]; funext j; simp only [lowBlock, hR.otherL _ (hne i hi hc)]
          · rw [← b]; funext j; simp only [uppBlock, hR.otherU _ (hne i hi hc)]
          · rw [c, diagBlock, diagBlock, hR.otherD _ (hne i hi hc)])
  rw [List.length_range] at h3
  refine ⟨{ B with decomposed := true }, by rw [decompose, h1, Res.ok_bind], fun i hi => ?_⟩
  exact h3 i hi hi

/-! ### products and substitutions -/

variable {M : Type} [AddCommGroup M] [Module R M]

omit h in
theorem addRow_eq (f : Nat → R) (row : List Nat) (x : Nat → M) (acc : M) :
    addRow f row x acc = acc + (row.zipIdx.map (fun e => f e.2 • x e.1)).sum := by
  unfold addRow
  generalize row.zipIdx = l
  induction l generalizing acc with
  | nil => simp
  | cons e es ih => rw [List.foldl_cons, ih, List.map_cons, List.sum_cons, add_assoc]

omit h in
theorem subRow_eq (f : Nat → R) (row : List Nat) (i : Nat) (y : Nat → M) (hi : i ∉ row) :
    subRow f row i y = upd y i (y i - (row.zipIdx.map (fun e => f e.2 • y e.1)).sum) := by
  unfold subRow
  have hm : ∀ e ∈ row.zipIdx, e.1 ≠ i := by
    intro e he hc
    obtain ⟨t, ht⟩ := List.mem_iff_getElem?.1 he
    exact hi (hc ▸ List.mem_of_getElem? (zipIdx_get _ _ _ ht).1)
  generalize row.zipIdx = l at hm
  have H : ∀ (l : List (Nat × Nat)) (c : M), (∀ e ∈ l, e.1 ≠ i) →
      l.foldl (fun r e => upd r i (r i - f e.2 • r e.1)) (upd y i c) = upd y i (c - (l.map (fun e => f e.2 • y e.1)).sum) := by
    intro l
    induction l with
    | nil => intro c _; simp
    | cons e es ih =>
      intro c hm
      rw [List.foldl_cons, upd_self, upd_ne _ _ (hm e (by simp)), upd_upd, ih _ (fun e' he' => hm e' (List.mem_cons_of_mem _ he')),
        List.map_cons, List.sum_cons]
      congr 1; abel
  have := H l (y i) hm
  rwa [upd_eq] at this

/-- a row of old-numbered entries as a sum over new columns -/
theorem old_row_sum (rows : List (List Nat)) (f : Nat → R) (z : Nat → M) {i : Nat} (hs : (rowOf rows i).Pairwise (· < ·))
    (hn : ∀ j ∈ rowOf rows i, j < S.n) :
    ((((rowOf rows i).map (rename S.n2o)).zipIdx).map (fun e => f e.2 • z e.1)).sum =
      ∑ k ∈ Finset.range S.n, (if k ∈ rowOf rows i then f ((rowOf rows i).idxOf k) else 0) • z (rename S.n2o k) := by
  have h1 : (((rowOf rows i).map (rename S.n2o)).zipIdx).map (fun e => f e.2 • z e.1) =
      (rowOf rows i).zipIdx.map (fun e => f e.2 • z (rename S.n2o e.1)) := by
    rw [List.zipIdx_map, List.map_map]; rfl
  rw [h1, zipIdx_map_idxOf _ (nodup_of_sorted hs) (fun x p => f p • z (rename S.n2o x)),
    list_sum_range _ (nodup_of_sorted hs) S.n hn]
  apply Finset.sum_congr rfl
  intro k _
  split
  · rfl
  · rw [zero_smul]

theorem lowOld_idx {i : Nat} (hi : i < S.n) : idx S.lowOld (rename S.n2o i) = .ok ((rowOf S.low i).map (rename S.n2o)) := by
  rw [idx, h.lowOld i hi]
theorem uppOld_idx {i : Nat} (hi : i < S.n) : idx S.uppOld (rename S.n2o i) = .ok ((rowOf S.upp i).map (rename S.n2o)) := by
  rw [idx, h.uppOld i hi]

theorem low_row_sum (B : Blocks R) (z : Nat → M) {i : Nat} (hi : i < S.n) :
    ((((rowOf S.low i).map (rename S.n2o)).zipIdx).map (fun e => B.lower (rename S.n2o i) e.2 • z e.1)).sum =
      ∑ k ∈ Finset.range S.n, lowBlock S B i k • z (rename S.n2o k) :=
  old_row_sum h S.low (B.lower (rename S.n2o i)) z (h.lowSorted i hi) (fun j hj => (h.low_lt hi hj).2)

theorem upp_row_sum (B : Blocks R) (z : Nat → M) {i : Nat} (hi : i < S.n) :
    ((((rowOf S.upp i).map (rename S.n2o)).zipIdx).map (fun e => B.upper (rename S.n2o i) e.2 • z e.1)).sum =
      ∑ k ∈ Finset.range S.n, uppBlock S B i k • z (rename S.n2o k) :=
  old_row_sum h S.upp (B.upper (rename S.n2o i)) z (h.uppSorted i hi) (fun j hj => (h.uppAbove i hi j hj).2)

/-- `MatMul` computes the product with the block matrix -/
theorem matMul_spec (B : Blocks R) (hd : B.decomposed = false) (x r0 : Nat → M) :
    ∃ r, matMul S B x r0 = .ok r ∧
      ∀ i < S.n, r (rename S.n2o i) = ∑ j ∈ Finset.range S.n, matBlock S B i j • x (rename S.n2o j) := by
  have := foldRes_total (fun (result : Nat → M) i => do
      let lo ← idx S.lowOld i
      let up ← idx S.uppOld i
      Res.ok (upd result i (addRow (B.upper i) up x (addRow (B.lower i) lo x (B.diag i • x i)))))
    (fun t r => ∀ i < S.n, rename S.n2o i < t → r (rename S.n2o i) = ∑ j ∈ Finset.range S.n, matBlock S B i j • x (rename S.n2o j))
    (List.range S.n) r0 (fun _ _ hc => by omega) (by
      intro t v a hx ha
      obtain ⟨rfl, ht⟩ := range_get h hx
      obtain ⟨i, hi, e⟩ := h.perm.surj v ht
      subst e
      rw [lowOld_idx h hi, Res.ok_bind, uppOld_idx h hi, Res.ok_bind]
      refine ⟨_, rfl, ?_⟩
      intro i' hi' hlt
      by_cases hc : rename S.n2o i' = rename S.n2o i
      · have := h.perm.inj i' hi' i hi hc
        subst this
        rw [upd_self, addRow_eq, addRow_eq, low_row_sum h B x hi, upp_row_sum h B x hi]
        have hm : ∀ j ∈ Finset.range S.n, matBlock S B i' j • x (rename S.n2o j) =
            (if j = i' then diagBlock S B i' • x (rename S.n2o j) else 0) + lowBlock S B i' j • x (rename S.n2o j) +
              uppBlock S B i' j • x (rename S.n2o j) := by
          intro j hj
          unfold matBlock
          by_cases hij : i' = j
          · subst hij
            rw [if_pos rfl, if_pos rfl, lowBlock_self h B hi', uppBlock_self h B hi', zero_smul]; simp
          · rw [if_neg hij, if_neg (Ne.symm hij), add_smul, zero_add]
        rw [Finset.sum_congr rfl hm, Finset.sum_add_distrib, Finset.sum_add_distrib, Finset.sum_ite_eq',
          if_pos (Finset.mem_range.2 hi')]
        rfl
      · rw [upd_ne _ _ hc]
        exact ha i' hi' (by omega))
  obtain ⟨r, h1, h2⟩ := this
  refine ⟨r, ?_, ?_⟩
  · rw [matMul, Res.assert_true _ (by simp [hd]), Res.ok_bind]; exact h1
  · intro i hi
    exact h2 i hi (by rw [List.length_range]; exact h.perm.lt i hi)

/-- forward substitution, used by both factorizations -/
theorem forward_spec (B : Blocks R) (b r0 : Nat → M) :
    ∃ y, foldRes (fun (result : Nat → M) iP => do
        let i ← reorder S.n2o iP
        let row ← idx S.lowOld i
        Res.ok (subRow (B.lower i) row i (upd result i (b i)))) r0 (List.range S.n) = .ok y ∧
      ∀ i < S.n, y (rename S.n2o i) = b (rename S.n2o i) - ∑ k ∈ Finset.range S.n, lowBlock S B i k • y (rename S.n2o k) := by
  have := foldRes_total (fun (result : Nat → M) iP => do
      let i ← reorder S.n2o iP
      let row ← idx S.lowOld i
      Res.ok (subRow (B.lower i) row i (upd result i (b i))))
    (fun t y => ∀ i < S.n, i < t → y (rename S.n2o i) =
      b (rename S.n2o i) - ∑ k ∈ Finset.range S.n, lowBlock S B i k • y (rename S.n2o k))
    (List.range S.n) r0 (fun _ _ hc => by omega) (by
      intro t v a hx ha
      obtain ⟨rfl, ht⟩ := range_get h hx
      rw [h.perm.app v ht, Res.ok_bind, lowOld_idx h ht, Res.ok_bind]
      refine ⟨_, rfl, ?_⟩
      have hnm : rename S.n2o v ∉ (rowOf S.low v).map (rename S.n2o) := by
        intro hc
        obtain ⟨k, hk, e⟩ := List.mem_map.1 hc
        have h1 := h.low_lt ht hk
        have := h.perm.inj k h1.2 v ht e
        omega
      have hsum : ∀ (z z' : Nat → M) (i : Nat), i < S.n → (∀ k < i, z (rename S.n2o k) = z' (rename S.n2o k)) →
          (∑ k ∈ Finset.range S.n, lowBlock S B i k • z (rename S.n2o k)) =
            ∑ k ∈ Finset.range S.n, lowBlock S B i k • z' (rename S.n2o k) := by
        intro z z' i hi hz
        apply Finset.sum_congr rfl
        intro k _
        by_cases hk : k ∈ rowOf S.low i
        · rw [hz k (h.low_lt hi hk).1]
        · rw [lowBlock_zero B hk, zero_smul, zero_smul]
      have hne : ∀ k < v, rename S.n2o k ≠ rename S.n2o v := fun k hk hc => by
        have := h.perm.inj k (by omega) v ht hc; omega
      rw [subRow_eq _ _ _ _ hnm]
      intro i hi hit
      by_cases hc : i = v
      · subst hc
        rw [upd_self, upd_self, low_row_sum h B _ hi, upd_upd]
        congr 1
        apply hsum _ _ _ hi
        intro k hk
        rw [upd_ne _ _ (hne k hk), upd_ne _ _ (hne k hk)]
      · have hlt : i < v := by omega
        rw [upd_upd, upd_ne _ _ (hne i hlt), ha i hi hlt]
        congr 1
        apply hsum _ _ _ hi
        intro k hk
        rw [upd_ne _ _ (hne k (by omega))])
  obtain ⟨y, h1, h2⟩ := this
  exact ⟨y, h1, fun i hi => h2 i hi (by rw [List.length_range]; exact hi)⟩

theorem rev_range_get {n t x : Nat} (hx : (List.range n).reverse[t]? = some x) : x = n - 1 - t ∧ t < n := by
  have hl := (List.getElem?_eq_some_iff.1 hx).1
  rw [List.length_reverse, List.length_range] at hl
  rw [List.getElem?_reverse (by rw [List.length_range]; exact hl), List.length_range] at hx
  obtain ⟨e, _⟩ := range_get h hx
  exact ⟨e, hl⟩

/-- `Solve` substitutes forwards and backwards -/
theorem solve_spec (B : Blocks R) (hd : B.decomposed = true) (b r0 : Nat → M) :
    ∃ x y : Nat → M, solve S B b r0 = .ok x ∧
      (∀ i < S.n, y (rename S.n2o i) = b (rename S.n2o i) - ∑ k ∈ Finset.range S.n, lowBlock S B i k • y (rename S.n2o k)) ∧
      (∀ i < S.n, x (rename S.n2o i) = diagBlock S B i • (y (rename S.n2o i) -
        ∑ k ∈ Finset.range S.n, uppBlock S B i k • x (rename S.n2o k))) := by
  obtain ⟨y, h1, h2⟩ := forward_spec h B b r0
  have := foldRes_total (fun (result : Nat → M) iP => do
      let i ← reorder S.n2o iP
      let row ← idx S.uppOld i
      let result := subRow (B.upper i) row i result
      Res.ok (upd result i (B.diag i • result i)))
    (fun t x => (∀ i < S.n, i + t < S.n → x (rename S.n2o i) = y (rename S.n2o i)) ∧
      ∀ i < S.n, S.n ≤ i + t → x (rename S.n2o i) = diagBlock S B i • (y (rename S.n2o i) -
        ∑ k ∈ Finset.range S.n, uppBlock S B i k • x (rename S.n2o k)))
    (List.range S.n).reverse y ⟨fun _ _ _ => rfl, fun _ _ hc => by omega⟩ (by
      intro t v a hx ha
      obtain ⟨hv, ht⟩ := rev_range_get h hx
      have hvn : v < S.n := by omega
      rw [h.perm.app v hvn, Res.ok_bind, uppOld_idx h hvn, Res.ok_bind]
      refine ⟨_, rfl, ?_⟩
      have hnm : rename S.n2o v ∉ (rowOf S.upp v).map (rename S.n2o) := by
        intro hc
        obtain ⟨k, hk, e⟩ := List.mem_map.1 hc
        have h1 := h.uppAbove v hvn k hk
        have := h.perm.inj k h1.2 v hvn e
        omega
      have hsum : ∀ (z z' : Nat → M) (i : Nat), i < S.n → (∀ k < S.n, i < k → z (rename S.n2o k) = z' (rename S.n2o k)) →
          (∑ k ∈ Finset.range S.n, uppBlock S B i k • z (rename S.n2o k)) =
            ∑ k ∈ Finset.range S.n, uppBlock S B i k • z' (rename S.n2o k) := by
        intro z z' i hi hz
        apply Finset.sum_congr rfl
        intro k _
        by_cases hk : k ∈ rowOf S.upp i
        · have h1 := h.uppAbove i hi k hk
          rw [hz k h1.2 h1.1]
        · rw [uppBlock_zero B hk, zero_smul, zero_smul]
      have hne : ∀ k < S.n, k ≠ v → rename S.n2o k ≠ rename S.n2o v := fun k hk hkv hc => hkv (h.perm.inj k hk v hvn hc)
      simp only [subRow_eq _ _ _ _ hnm, upd_upd, upd_self]
      refine ⟨?_, ?_⟩
      · intro i hi hit
        rw [upd_ne _ _ (hne i hi (by omega))]
        exact ha.1 i hi (by omega)
      · intro i hi hit
        by_cases hc : i = v
        · subst hc
          rw [upd_self, upp_row_sum h B _ hi, ha.1 i hi (by omega), diagBlock]
          congr 2
          apply hsum _ _ _ hi
          intro k hk hik
          rw [upd_ne _ _ (hne k hk (by omega))]
        · rw [upd_ne _ _ (hne i hi hc), ha.2 i hi (by omega)]
          congr 2
          apply hsum _ _ _ hi
          intro k hk hik
          rw [upd_ne _ _ (hne k hk (by omega))])
  obtain ⟨x, h3, h4, h5⟩ := this
  refine ⟨x, y, ?_, h2, fun i hi => h5 i hi (by rw [List.length_reverse, List.length_range]; omega)⟩
  rw [solve, Res.assert_true _ hd, Res.ok_bind, h1, Res.ok_bind]
  exact h3

omit h in
/-- solving with unit lower and upper factors solves with their product -/
theorem product_solves (n : Nat) (A : Nat → Nat → R) (lo up : Nat → Nat → R) (v d : Nat → R) (x y b : Nat → M)
    (hA : ∀ i < n, ∀ j < n, A i j = (∑ k ∈ Finset.range n, lo i k * up k j) + lo i j * v j + up i j + (if i = j then v i else 0))
    (hv : ∀ i < n, v i * d i = 1)
    (hy : ∀ i < n, y i = b i - ∑ k ∈ Finset.range n, lo i k • y k)
    (hx : ∀ i < n, x i = d i • (y i - ∑ k ∈ Finset.range n, up i k • x k)) :
    ∀ i < n, (∑ j ∈ Finset.range n, A i j • x j) = b i := by
  intro i hi
  have hvx : ∀ i < n, v i • x i + ∑ k ∈ Finset.range n, up i k • x k = y i := by
    intro i hi
    have : v i • x i = y i - ∑ k ∈ Finset.range n, up i k • x k := by
      conv_lhs => rw [hx i hi]
      rw [smul_smul, hv i hi, one_smul]
    rw [this]; abel
  have h1 : ∀ j ∈ Finset.range n, A i j • x j = (∑ k ∈ Finset.range n, lo i k • (up k j • x j)) + lo i j • (v j • x j) +
      up i j • x j + (if j = i then v i • x j else 0) := by
    intro j hj
    rw [hA i hi j (Finset.mem_range.1 hj), add_smul, add_smul, add_smul, Finset.sum_smul]
    simp only [mul_smul]
    congr 1
    by_cases hij : i = j
    · subst hij; simp
    · rw [if_neg hij, if_neg (Ne.symm hij), zero_smul]
  rw [Finset.sum_congr rfl h1, Finset.sum_add_distrib, Finset.sum_add_distrib, Finset.sum_add_distrib, Finset.sum_comm,
    Finset.sum_ite_eq', if_pos (Finset.mem_range.2 hi)]
  have h2 : (∑ k ∈ Finset.range n, ∑ j ∈ Finset.range n, lo i k • (up k j • x j)) + ∑ k ∈ Finset.range n, lo i k • (v k • x k) =
      ∑ k ∈ Finset.range n, lo i k • y k := by
    rw [← Finset.sum_add_distrib]
    apply Finset.sum_congr rfl
    intro k hk
    rw [← Finset.smul_sum, ← smul_add, add_comm, hvx k (Finset.mem_range.1 hk)]
  rw [h2, add_assoc, add_comm (∑ j ∈ Finset.range n, up i j • x j), hvx i hi, hy i hi]
  abel

end

end DNDSR.Direct
