import Verif.Proof.DirectLU

/-!
# Lemmas for the symbolic factorization
-/

namespace DNDSR.Direct

open DNDSR.IMap DNDSR.Defines

/-! ### sets of rows -/

/-- a loop that only adds members -/
theorem foldRes_grow {σ α κ : Type} (f : σ → α → Res σ) (I : σ → Prop) (mem : σ → κ → Prop) (Q : α → κ → Prop) (l : List α)
    (step : ∀ a ∈ l, ∀ s, I s → ∃ s', f s a = .ok s' ∧ I s' ∧ ∀ k, mem s' k ↔ mem s k ∨ Q a k) :
    ∀ s, I s → ∃ s', foldRes f s l = .ok s' ∧ I s' ∧ ∀ k, mem s' k ↔ mem s k ∨ ∃ a ∈ l, Q a k := by
  induction l with
  | nil => intro s hs; exact ⟨s, rfl, hs, fun k => by simp⟩
  | cons a as ih =>
    intro s hs
    obtain ⟨s1, h1, h2, h3⟩ := step a (by simp) s hs
    obtain ⟨s2, h4, h5, h6⟩ := ih (fun b hb => step b (by simp [hb])) s1 h2
    refine ⟨s2, by rw [foldRes, h1, Res.ok_bind, h4], h5, fun k => ?_⟩
    rw [h6, h3]
    simp only [List.mem_cons, exists_eq_or_imp, or_assoc]

theorem mem_ins (s : List Nat) (x y : Nat) : y ∈ ins s x ↔ y ∈ s ∨ y = x := by
  unfold ins
  split
  · next h => exact ⟨Or.inl, fun hy => hy.elim id (fun e => e ▸ h)⟩
  · simp

theorem nodup_ins {s : List Nat} (h : s.Nodup) (x : Nat) : (ins s x).Nodup := by
  unfold ins
  split
  · exact h
  · next hx => exact List.nodup_append.2 ⟨h, by simp, by intro a ha b hb; simp at hb; subst hb; intro e; subst e; exact hx ha⟩

theorem mem_foldl_ins (row s : List Nat) (y : Nat) : y ∈ row.foldl ins s ↔ y ∈ s ∨ y ∈ row := by
  induction row generalizing s with
  | nil => simp
  | cons a as ih => rw [List.foldl_cons, ih, mem_ins, List.mem_cons, or_assoc]

theorem nodup_foldl_ins (row s : List Nat) (h : s.Nodup) : (row.foldl ins s).Nodup := by
  induction row generalizing s with
  | nil => exact h
  | cons a as ih => rw [List.foldl_cons]; exact ih _ (nodup_ins h a)

/-- `n` rows, none with duplicates -/
def Rows (n : Nat) (t : List (List Nat)) : Prop := t.length = n ∧ ∀ i, (rowOf t i).Nodup

theorem rowOf_idx {t : List (List Nat)} {i : Nat} (h : i < t.length) : idx t i = .ok (rowOf t i) := by
  rw [idx, rowOf_get h]

theorem rowOf_set {t : List (List Nat)} {i : Nat} (h : i < t.length) (r : List Nat) (k : Nat) :
    rowOf (t.set i r) k = if k = i then r else rowOf t k := by
  unfold rowOf
  rw [List.getD_eq_getElem?_getD, List.getD_eq_getElem?_getD, List.getElem?_set]
  by_cases hk : i = k
  · subst hk; simp [h]
  · rw [if_neg hk, if_neg (Ne.symm hk)]

theorem rowOf_out {t : List (List Nat)} {i : Nat} (h : t.length ≤ i) : rowOf t i = [] := by
  unfold rowOf
  rw [List.getD_eq_getElem?_getD, List.getElem?_eq_none h]; rfl

theorem rowOf_replicate (n i : Nat) : rowOf (List.replicate n []) i = [] := by
  unfold rowOf
  rw [List.getD_eq_getElem?_getD, List.getElem?_replicate]
  split <;> rfl

theorem insAt_spec {n : Nat} {t : List (List Nat)} (h : Rows n t) {i : Nat} (hi : i < n) (v : Nat) :
    ∃ t', insAt t i v = .ok t' ∧ Rows n t' ∧ ∀ x y, y ∈ rowOf t' x ↔ y ∈ rowOf t x ∨ (x = i ∧ y = v) := by
  have hl : i < t.length := by rw [h.1]; exact hi
  refine ⟨_, by rw [insAt, rowOf_idx hl, Res.ok_bind], ⟨by rw [List.length_set, h.1], ?_⟩, ?_⟩
  · intro k
    rw [rowOf_set hl]
    split
    · exact nodup_ins (h.2 i) v
    · exact h.2 k
  · intro x y
    rw [rowOf_set hl]
    split
    · next e => subst e; rw [mem_ins]; simp
    · next e => simp [e]

/-! ### the reorderings -/

/-- the two tables as functions -/
structure Re (n : Nat) (o2n n2o : List Nat) : Prop where
  new : ∀ i < n, reorder n2o i = .ok (rename n2o i)
  old : ∀ v < n, reorder o2n v = .ok (rename o2n v)
  newLt : ∀ i < n, rename n2o i < n
  oldLt : ∀ v < n, rename o2n v < n
  newOld : ∀ i < n, rename o2n (rename n2o i) = i
  oldNew : ∀ v < n, rename n2o (rename o2n v) = v

theorem isReorder_re {n : Nat} {o2n n2o : List Nat} (h : IsReorder n o2n n2o) : Re n o2n n2o := by
  rcases h with ⟨h1, h2⟩ | ⟨h1, h2, h3, h4⟩
  · subst h1 h2
    exact ⟨fun _ _ => rfl, fun _ _ => rfl, fun i hi => by simpa [rename] using hi, fun i hi => by simpa [rename] using hi,
      fun _ _ => by simp [rename], fun _ _ => by simp [rename]⟩
  · by_cases hn : n = 0
    · subst hn
      exact ⟨fun i hi => by omega, fun i hi => by omega, fun i hi => by omega, fun i hi => by omega, fun i hi => by omega,
        fun i hi => by omega⟩
    have e1 : o2n ≠ [] := by intro e; rw [e] at h1; simp at h1; omega
    have e2 : n2o ≠ [] := by intro e; rw [e] at h2; simp at h2; omega
    have r1 : ∀ v w, o2n[v]? = some w → rename o2n v = w := fun v w hw => by
      rw [rename, if_neg e1, List.getD_eq_getElem?_getD, hw]; rfl
    have r2 : ∀ v w, n2o[v]? = some w → rename n2o v = w := fun v w hw => by
      rw [rename, if_neg e2, List.getD_eq_getElem?_getD, hw]; rfl
    refine ⟨?_, ?_, ?_, ?_, ?_, ?_⟩
    · intro i hi
      obtain ⟨v, _, a, _⟩ := h4 i hi
      rw [r2 _ _ a, reorder, if_neg (by simpa using e2), idx, a]
    · intro i hi
      obtain ⟨v, _, a, _⟩ := h3 i hi
      rw [r1 _ _ a, reorder, if_neg (by simpa using e1), idx, a]
    · intro i hi
      obtain ⟨v, hv, a, _⟩ := h4 i hi
      rw [r2 _ _ a]; exact hv
    · intro i hi
      obtain ⟨v, hv, a, _⟩ := h3 i hi
      rw [r1 _ _ a]; exact hv
    · intro i hi
      obtain ⟨v, hv, a, b⟩ := h4 i hi
      rw [r2 _ _ a, r1 _ _ b]
    · intro i hi
      obtain ⟨v, hv, a, b⟩ := h3 i hi
      rw [r1 _ _ a, r2 _ _ b]

section
variable {n : Nat} {adj : List (List Nat)} {o2n n2o : List Nat} {ord : List Nat → List Nat} {iluCode : Int}
variable (hadj : SymAdj n adj) (hre : Re n o2n n2o) (hord : ∀ l, (ord l).Perm l)

/-! ### the enlarged stencil -/

theorem SymAdj.within {n : Nat} {adj : List (List Nat)} (h : SymAdj n adj) :
    ∀ k a b, a < n → Within adj k a b → b < n := by
  intro k
  induction k with
  | zero => intro a b ha hb; exact (h.2 a ha b hb).1
  | succ k ih =>
    intro a b ha hb
    rcases hb with hb | ⟨x, hx, hb⟩
    · exact ih a b ha hb
    · exact (h.2 x (ih a x ha hx) b hb).1

include hadj hord in
theorem enlargeSweeps_spec (k : Nat) : ∀ (m : Nat) (enl : List (List Nat)), enl.length = n → (∀ i, (rowOf enl i).Nodup) →
    (∀ i < n, ∀ y, y ∈ rowOf enl i ↔ Within adj m i y) →
    ∃ enl', enlargeSweeps ord adj n k enl = .ok enl' ∧ enl'.length = n ∧ (∀ i, (rowOf enl' i).Nodup) ∧
      ∀ i < n, ∀ y, y ∈ rowOf enl' i ↔ Within adj (m + k) i y := by
  induction k with
  | zero => intro m enl h1 hn h2; exact ⟨enl, rfl, h1, hn, h2⟩
  | succ k ih =>
    intro m enl h1 hn h2
    obtain ⟨e1, h3, h4, h4n, h5, h6⟩ := foldRes_total (enlargeCell ord adj)
      (fun t e => e.length = n ∧ (∀ i, (rowOf e i).Nodup) ∧ (∀ i < n, i < t → ∀ y, y ∈ rowOf e i ↔ Within adj (m + 1) i y) ∧
        ∀ i < n, t ≤ i → ∀ y, y ∈ rowOf e i ↔ Within adj m i y) (List.range n) enl
      ⟨h1, hn, fun i _ hi => by omega, fun i hi _ => h2 i hi⟩ (by
        intro t x e hx ⟨g1, gn, g2, g3⟩
        have hx' := List.getElem?_eq_some_iff.1 hx
        obtain ⟨htl, hxt⟩ := hx'
        rw [List.getElem_range] at hxt
        subst hxt
        have ht : t < n := by simpa using htl
        have hl : t < e.length := by rw [g1]; exact ht
        obtain ⟨s, q1, q2, q3⟩ := foldRes_grow (fun newN iCO => do
            let row ← idx adj iCO
            Res.ok (row.foldl ins newN)) (fun _ => True) (fun s y => y ∈ s) (fun a y => y ∈ rowOf adj a) (ord (rowOf e t)) (by
              intro a ha s _
              have hat : a ∈ rowOf e t := (hord _).mem_iff.1 ha
              have han := hadj.within m t a ht ((g3 t ht (Nat.le_refl _) a).1 hat)
              refine ⟨(rowOf adj a).foldl ins s, by rw [rowOf_idx (by rw [hadj.1]; exact han), Res.ok_bind], trivial, fun y => ?_⟩
              exact mem_foldl_ins _ _ _) [] trivial
        refine ⟨e.set t ((ord s).foldl ins (rowOf e t)), ?_, by rw [List.length_set, g1], ?_, ?_, ?_⟩
        · rw [enlargeCell, rowOf_idx hl, Res.ok_bind, q1, Res.ok_bind]
        · intro i
          rw [rowOf_set hl]
          split
          · exact nodup_foldl_ins _ _ (gn t)
          · exact gn i
        · intro i hi hit y
          rw [rowOf_set hl]
          by_cases hc : i = t
          · subst hc
            rw [if_pos rfl, mem_foldl_ins, g3 i hi (Nat.le_refl _), (hord s).mem_iff, q3]
            constructor
            · rintro (h | h | ⟨a, ha, hy⟩)
              · exact Or.inl h
              · simp at h
              · exact Or.inr ⟨a, (g3 i hi (Nat.le_refl _) a).1 ((hord _).mem_iff.1 ha), hy⟩
            · rintro (h | ⟨a, ha, hy⟩)
              · exact Or.inl h
              · exact Or.inr (Or.inr ⟨a, (hord _).mem_iff.2 ((g3 i hi (Nat.le_refl _) a).2 ha), hy⟩)
          · rw [if_neg hc]; exact g2 i hi (by omega) y
        · intro i hi hit y
          rw [rowOf_set hl, if_neg (by omega)]
          exact g3 i hi (by omega) y)
    rw [List.length_range] at h5
    obtain ⟨e2, h7, h8, h8n, h9⟩ := ih (m + 1) e1 h4 h4n (fun i hi => h5 i hi hi)
    refine ⟨e2, by rw [enlargeSweeps, h3, Res.ok_bind, h7], h8, h8n, fun i hi y => ?_⟩
    rw [h9 i hi, show m + 1 + k = m + (k + 1) by omega]

include hadj hord in
theorem enlarge_spec (hcode : iluCode ≤ 5) : ∃ enl, enlarge ord adj n iluCode = .ok enl ∧
    (0 < iluCode → enl.length = n ∧ ∀ i < n, ∀ y, y ≠ i → (y ∈ rowOf enl i ↔ Within adj iluCode.toNat i y)) := by
  unfold enlarge
  by_cases h : iluCode > 0
  · rw [if_pos h, Res.assert_true _ hcode, Res.ok_bind]
    obtain ⟨e0, h1, h2, h3, h3n⟩ := foldRes_total (fun t i => do
        let row ← idx adj i
        Res.ok (t ++ [row.foldl ins []]))
      (fun t (e : List (List Nat)) => e.length = t ∧ (∀ i < t, ∀ y, y ∈ rowOf e i ↔ y ∈ rowOf adj i) ∧ ∀ i, (rowOf e i).Nodup) (List.range n) []
      ⟨rfl, fun i hi => by omega, fun i => by rw [rowOf_out (by simp)]; simp⟩ (by
        intro t x e hx ⟨g1, g2, g3⟩
        obtain ⟨htl, hxt⟩ := List.getElem?_eq_some_iff.1 hx
        rw [List.getElem_range] at hxt
        subst hxt
        have ht : t < n := by simpa using htl
        have happ : ∀ i, rowOf (e ++ [(rowOf adj t).foldl ins []]) i =
            if i < t then rowOf e i else if i = t then (rowOf adj t).foldl ins [] else [] := by
          intro i
          unfold rowOf
          rw [List.getD_eq_getElem?_getD, List.getD_eq_getElem?_getD (l := e)]
          by_cases h1 : i < t
          · rw [if_pos h1, List.getElem?_append_left (by omega)]
          · rw [if_neg h1, List.getElem?_append_right (by omega)]
            by_cases h2 : i = t
            · subst h2; simp [g1]
            · rw [if_neg h2, List.getElem?_eq_none (by simp; omega)]; rfl
        refine ⟨e ++ [(rowOf adj t).foldl ins []], by rw [rowOf_idx (by rw [hadj.1]; exact ht), Res.ok_bind],
          by simp [g1], ?_, ?_⟩
        · intro i hi y
          rw [happ]
          by_cases hc : i < t
          · rw [if_pos hc]; exact g2 i hc y
          · have : i = t := by omega
            subst this
            rw [if_neg hc, if_pos rfl, mem_foldl_ins]; simp
        · intro i
          rw [happ]
          split
          · exact g3 i
          · split
            · exact nodup_foldl_ins _ _ (by simp)
            · simp)
    rw [List.length_range] at h2 h3
    obtain ⟨e1, h4, h5, h5n, h6⟩ := enlargeSweeps_spec hadj hord iluCode.toNat 0 e0 h2 h3n h3
    obtain ⟨e2, h7, h8, h9⟩ := foldRes_total (fun t i => do
        let s ← idx t i
        Res.ok (t.set i (s.erase i)))
      (fun t (e : List (List Nat)) => e.length = n ∧ ∀ i < n, rowOf e i = if i < t then (rowOf e1 i).erase i else rowOf e1 i)
      (List.range n) e1 ⟨h5, fun i hi => by simp⟩ (by
        intro t x e hx ⟨g1, g2⟩
        obtain ⟨htl, hxt⟩ := List.getElem?_eq_some_iff.1 hx
        rw [List.getElem_range] at hxt
        subst hxt
        have ht : t < n := by simpa using htl
        have hl : t < e.length := by omega
        refine ⟨_, by rw [rowOf_idx hl, Res.ok_bind], by rw [List.length_set, g1], ?_⟩
        intro i hi
        rw [rowOf_set hl]
        by_cases hc : i = t
        · subst hc
          rw [if_pos rfl, if_pos (by omega), g2 i hi, if_neg (by omega)]
        · rw [if_neg hc, g2 i hi]
          by_cases hl : i < t
          · rw [if_pos hl, if_pos (by omega)]
          · rw [if_neg hl, if_neg (by omega)])
    rw [List.length_range] at h9
    refine ⟨e2, by rw [h1, Res.ok_bind, h4, Res.ok_bind, h7], fun _ => ⟨h8, fun i hi y hy => ?_⟩⟩
    rw [h9 i hi, if_pos hi, List.mem_erase_of_ne hy, h6 i hi, Nat.zero_add]
  · rw [if_neg h]
    exact ⟨[], rfl, fun hc => absurd hc h⟩

/-! ### the initial columns -/

include hadj hre in
theorem initCols_spec : ∃ t, initCols adj o2n n2o n = .ok t ∧ Rows n t ∧
    ∀ p < n, ∀ q, q ∈ rowOf t p ↔ q < n ∧ (q = p ∨ rename n2o q ∈ rowOf adj (rename n2o p)) := by
  have := foldRes_total (fun t iCellP => do
      let iCell ← reorder n2o iCellP
      let row ← idx adj iCell
      let s ← foldRes (fun s iOther => do
        let p ← reorder o2n iOther
        Res.ok (ins s p)) [iCellP] row
      Res.ok (t ++ [s]))
    (fun t (e : List (List Nat)) => e.length = t ∧ (∀ i, (rowOf e i).Nodup) ∧
      ∀ p < t, ∀ q, q ∈ rowOf e p ↔ q < n ∧ (q = p ∨ rename n2o q ∈ rowOf adj (rename n2o p))) (List.range n) []
    ⟨rfl, fun i => by rw [rowOf_out (by simp)]; simp, fun i hi => by omega⟩ (by
      intro t x e hx ⟨g1, g3, g2⟩
      obtain ⟨htl, hxt⟩ := List.getElem?_eq_some_iff.1 hx
      rw [List.getElem_range] at hxt
      subst hxt
      have ht : t < n := by simpa using htl
      have hold := hre.newLt t ht
      obtain ⟨s, q1, q2, q3⟩ := foldRes_grow (fun s iOther => do
          let p ← reorder o2n iOther
          Res.ok (ins s p)) (fun s => s.Nodup) (fun s y => y ∈ s) (fun a y => y = rename o2n a) (rowOf adj (rename n2o t)) (by
            intro a ha s hs
            have han := (hadj.2 _ hold a ha).1
            exact ⟨_, by rw [hre.old a han, Res.ok_bind], nodup_ins hs _, fun y => mem_ins _ _ _⟩) [t] (by simp)
      refine ⟨e ++ [s], by rw [hre.new t ht, Res.ok_bind, rowOf_idx (by rw [hadj.1]; exact hold), Res.ok_bind, q1, Res.ok_bind],
        by simp [g1], ?_⟩
      have happ : ∀ i, rowOf (e ++ [s]) i = if i < t then rowOf e i else if i = t then s else [] := by
        intro i
        unfold rowOf
        rw [List.getD_eq_getElem?_getD, List.getD_eq_getElem?_getD (l := e)]
        by_cases h1 : i < t
        · rw [if_pos h1, List.getElem?_append_left (by omega)]
        · rw [if_neg h1, List.getElem?_append_right (by omega)]
          by_cases h2 : i = t
          · subst h2; simp [g1]
          · rw [if_neg h2, List.getElem?_eq_none (by simp; omega)]; rfl
      refine ⟨?_, ?_⟩
      · intro i
        rw [happ]
        split
        · exact g3 i
        · split
          · exact q2
          · simp
      · intro p hp q
        rw [happ]
        by_cases hc : p < t
        · rw [if_pos hc]; exact g2 p hc q
        · have : p = t := by omega
          subst this
          rw [if_neg hc, if_pos rfl, q3]
          constructor
          · rintro (h | ⟨a, ha, rfl⟩)
            · simp at h; subst h; exact ⟨ht, Or.inl rfl⟩
            · have han := (hadj.2 _ hold a ha).1
              exact ⟨hre.oldLt a han, Or.inr (by rw [hre.oldNew a han]; exact ha)⟩
          · rintro ⟨hq, rfl | h⟩
            · simp
            · exact Or.inr ⟨_, h, (hre.newOld q hq).symm⟩)
  obtain ⟨t, h1, h2, h3, h4⟩ := this
  rw [List.length_range] at h2 h4
  exact ⟨t, h1, ⟨h2, h3⟩, h4⟩

/-! ### the columns -/

/-- what the fill rule reads -/
def EnlOk (n : Nat) (adj : List (List Nat)) (iluCode : Int) (enl : List (List Nat)) : Prop :=
  0 < iluCode → enl.length = n ∧ ∀ i < n, ∀ y, y ≠ i → (y ∈ rowOf enl i ↔ Within adj iluCode.toNat i y)

include hre in
theorem allowFill_spec {enl : List (List Nat)} (he : EnlOk n adj iluCode enl) {i j : Nat} (hi : i < n) (hj : j < n) (hij : i ≠ j) :
    ∃ b, allowFill iluCode enl (rename n2o i) (rename n2o j) = .ok b ∧ (b = true ↔ Allowed adj n2o iluCode i j) := by
  have hne : rename n2o j ≠ rename n2o i := fun e => hij (by rw [← hre.newOld i hi, ← hre.newOld j hj, e])
  unfold allowFill Allowed
  by_cases h1 : iluCode < 0
  · rw [if_pos h1]; exact ⟨true, rfl, by simp [h1]⟩
  · rw [if_neg h1]
    by_cases h2 : iluCode > 0
    · obtain ⟨e1, e2⟩ := he h2
      rw [if_pos h2, rowOf_idx (by rw [e1]; exact hre.newLt i hi), Res.ok_bind]
      refine ⟨_, rfl, ?_⟩
      rw [decide_eq_true_iff, e2 _ (hre.newLt i hi) _ hne]
      simp only [h1, false_or]
      exact ⟨fun h => ⟨h2, h⟩, fun h => h.2⟩
    · rw [if_neg h2]; exact ⟨false, rfl, by simp [h1]; intro h; omega⟩

/-- membership in the three tables -/
def Cols.mem (t : Cols) (k : Fin 3 × Nat × Nat) : Prop :=
  match k.1 with
  | 0 => k.2.2 ∈ rowOf t.mid k.2.1
  | 1 => k.2.2 ∈ rowOf t.low k.2.1
  | 2 => k.2.2 ∈ rowOf t.upp k.2.1

/-- the pair of entries a fill adds -/
def PairQ (adj : List (List Nat)) (n2o : List Nat) (iluCode : Int) (o oo : Nat) (k : Nat × Nat) : Prop :=
  o < oo ∧ Allowed adj n2o iluCode o oo ∧ (k = (oo, o) ∨ k = (o, oo))

include hre in
theorem fillPair_spec {enl : List (List Nat)} (he : EnlOk n adj iluCode enl) {o : Nat} (ho : o < n) {mid : List (List Nat)}
    (hm : Rows n mid) {oo : Nat} (hoo : oo < n) :
    ∃ mid', fillPair iluCode enl n2o o (rename n2o o) mid oo = .ok mid' ∧ Rows n mid' ∧
      ∀ k : Nat × Nat, k.2 ∈ rowOf mid' k.1 ↔ k.2 ∈ rowOf mid k.1 ∨ PairQ adj n2o iluCode o oo k := by
  unfold fillPair PairQ
  by_cases h : oo > o
  · obtain ⟨b, h1, h2⟩ := allowFill_spec hre he ho hoo (by omega : o ≠ oo)
    rw [if_pos h, hre.new oo hoo, Res.ok_bind, h1, Res.ok_bind]
    cases b with
    | true =>
      obtain ⟨m1, h3, h4, h5⟩ := insAt_spec hm hoo o
      obtain ⟨m2, h6, h7, h8⟩ := insAt_spec h4 ho oo
      refine ⟨m2, by rw [if_pos rfl, h3, Res.ok_bind, h6], h7, ?_⟩
      rintro ⟨x, y⟩
      simp only [Prod.mk.injEq]
      rw [h8, h5, or_assoc]
      have := h2.1 rfl
      simp only [h, this, true_and]
    | false =>
      have hn : ¬ Allowed adj n2o iluCode o oo := fun hc => by simpa using h2.2 hc
      exact ⟨mid, rfl, hm, fun k => by simp [hn]⟩
  · rw [if_neg h]
    exact ⟨mid, rfl, hm, fun k => by simp [h]⟩

/-- the three tables have `n` duplicate-free rows -/
def ColsOk (n : Nat) (t : Cols) : Prop := Rows n t.mid ∧ Rows n t.low ∧ Rows n t.upp

/-- what one entry `o` of column `c` adds -/
def EntryQ (adj : List (List Nat)) (n2o : List Nat) (iluCode : Int) (cur : List Nat) (c o : Nat) (k : Fin 3 × Nat × Nat) : Prop :=
  c < o ∧ match k.1 with
    | 0 => ∃ oo ∈ cur, PairQ adj n2o iluCode o oo k.2
    | 1 => k.2 = (o, c)
    | 2 => k.2 = (c, o)

include hre hord in
theorem colEntry_spec {enl : List (List Nat)} (he : EnlOk n adj iluCode enl) {c o : Nat} (hc : c < n) (ho : o < n) (cur : List Nat)
    (hcur : ∀ x ∈ cur, x < n) {t : Cols} (ht : ColsOk n t) :
    ∃ t', colEntry ord iluCode enl n2o cur c t o = .ok t' ∧ ColsOk n t' ∧
      ∀ k, t'.mem k ↔ t.mem k ∨ EntryQ adj n2o iluCode cur c o k := by
  unfold colEntry EntryQ
  by_cases h : o > c
  · rw [if_pos h, hre.new o ho, Res.ok_bind]
    obtain ⟨m, h1, h2, h3⟩ := foldRes_grow (fillPair iluCode enl n2o o (rename n2o o)) (Rows n)
      (fun m (k : Nat × Nat) => k.2 ∈ rowOf m k.1) (PairQ adj n2o iluCode o) (ord cur)
      (fun a ha s hs => fillPair_spec hre he ho hs (hcur a ((hord _).mem_iff.1 ha))) t.mid ht.1
    obtain ⟨l, h4, h5, h6⟩ := insAt_spec ht.2.1 ho c
    obtain ⟨u, h7, h8, h9⟩ := insAt_spec ht.2.2 hc o
    refine ⟨⟨m, l, u⟩, by rw [h1, Res.ok_bind, h4, Res.ok_bind, h7, Res.ok_bind], ⟨h2, h5, h8⟩, ?_⟩
    rintro ⟨k, x, y⟩
    unfold Cols.mem
    have h3' := h3 (x, y)
    simp only [(hord cur).mem_iff] at h3'
    match k with
    | 0 => simpa [h] using h3'
    | 1 => simpa [h] using h6 x y
    | 2 => simpa [h] using h9 x y
  · rw [if_neg h]
    refine ⟨t, rfl, ht, fun k => ?_⟩
    constructor
    · exact Or.inl
    · rintro (h' | ⟨h', _⟩)
      · exact h'
      · exact absurd h' h

include hre hord in
theorem column_spec {enl : List (List Nat)} (he : EnlOk n adj iluCode enl) {c : Nat} (hc : c < n) {t : Cols} (ht : ColsOk n t)
    (hcur : ∀ x ∈ rowOf t.mid c, x < n) :
    ∃ t', column ord iluCode enl n2o t c = .ok t' ∧ ColsOk n t' ∧
      ∀ k, t'.mem k ↔ t.mem k ∨ ∃ o ∈ rowOf t.mid c, EntryQ adj n2o iluCode (rowOf t.mid c) c o k := by
  obtain ⟨t', h1, h2, h3⟩ := foldRes_grow (colEntry ord iluCode enl n2o (rowOf t.mid c) c) (ColsOk n) Cols.mem
    (EntryQ adj n2o iluCode (rowOf t.mid c) c) (ord (rowOf t.mid c))
    (fun a ha s hs => colEntry_spec hre hord he hc (hcur a ((hord _).mem_iff.1 ha)) _ hcur hs) t ht
  refine ⟨t', by rw [column, rowOf_idx (by rw [ht.1.1]; exact hc), Res.ok_bind, h1], h2, fun k => ?_⟩
  rw [h3]
  simp only [(hord _).mem_iff]

/-- the state when columns before `t` are done -/
structure ColInv (n : Nat) (adj : List (List Nat)) (n2o : List Nat) (iluCode : Int) (t : Nat) (s : Cols) : Prop where
  ok : ColsOk n s
  lt : ∀ x y, y ∈ rowOf s.mid x → y < n
  symm : ∀ x y, y ∈ rowOf s.mid x → x ∈ rowOf s.mid y
  sound : ∀ x y, y ∈ rowOf s.mid x → x = y ∨ Fill n adj n2o iluCode x y
  edge : ∀ x < n, ∀ y < n, rename n2o y ∈ rowOf adj (rename n2o x) → y ∈ rowOf s.mid x
  closed : ∀ c < t, ∀ i ∈ rowOf s.mid c, ∀ j ∈ rowOf s.mid c, c < i → i < j → Allowed adj n2o iluCode i j → j ∈ rowOf s.mid i
  low : ∀ x y, y ∈ rowOf s.low x ↔ y < t ∧ y < x ∧ x ∈ rowOf s.mid y
  upp : ∀ x y, y ∈ rowOf s.upp x ↔ x < t ∧ x < y ∧ y ∈ rowOf s.mid x

theorem rowOf_lt {t : List (List Nat)} {i y : Nat} (h : y ∈ rowOf t i) : i < t.length := by
  apply Nat.lt_of_not_le
  intro hc
  rw [rowOf_out hc] at h
  simp at h

include hre hord in
theorem colInv_step {enl : List (List Nat)} (he : EnlOk n adj iluCode enl) {t : Nat} (ht : t < n) {s : Cols}
    (h : ColInv n adj n2o iluCode t s) :
    ∃ s', column ord iluCode enl n2o s t = .ok s' ∧ ColInv n adj n2o iluCode (t + 1) s' := by
  obtain ⟨s', h1, h2, h3⟩ := column_spec hre hord he ht h.ok (fun x hx => h.lt t x hx)
  refine ⟨s', h1, ?_⟩
  have hmid : ∀ x y, y ∈ rowOf s'.mid x ↔ y ∈ rowOf s.mid x ∨ ∃ o ∈ rowOf s.mid t, ∃ oo ∈ rowOf s.mid t, t < o ∧ o < oo ∧
      Allowed adj n2o iluCode o oo ∧ ((x = oo ∧ y = o) ∨ (x = o ∧ y = oo)) := by
    intro x y
    have := h3 (0, x, y)
    simp only [Cols.mem, EntryQ, PairQ, Prod.mk.injEq] at this
    rw [this]
    apply or_congr Iff.rfl
    constructor
    · rintro ⟨o, ho, hto, oo, hoo, hlt, ha, hk⟩; exact ⟨o, ho, oo, hoo, hto, hlt, ha, hk⟩
    · rintro ⟨o, ho, oo, hoo, hto, hlt, ha, hk⟩; exact ⟨o, ho, hto, oo, hoo, hlt, ha, hk⟩
  have hlow : ∀ x y, y ∈ rowOf s'.low x ↔ y ∈ rowOf s.low x ∨ (x ∈ rowOf s.mid t ∧ t < x ∧ y = t) := by
    intro x y
    have := h3 (1, x, y)
    simp only [Cols.mem, EntryQ, Prod.mk.injEq] at this
    rw [this]
    apply or_congr Iff.rfl
    constructor
    · rintro ⟨o, ho, hto, rfl, rfl⟩; exact ⟨ho, hto, rfl⟩
    · rintro ⟨ho, hto, rfl⟩; exact ⟨x, ho, hto, rfl, rfl⟩
  have hupp : ∀ x y, y ∈ rowOf s'.upp x ↔ y ∈ rowOf s.upp x ∨ (y ∈ rowOf s.mid t ∧ t < y ∧ x = t) := by
    intro x y
    have := h3 (2, x, y)
    simp only [Cols.mem, EntryQ, Prod.mk.injEq] at this
    rw [this]
    apply or_congr Iff.rfl
    constructor
    · rintro ⟨o, ho, hto, rfl, rfl⟩; exact ⟨ho, hto, rfl⟩
    · rintro ⟨ho, hto, rfl⟩; exact ⟨y, ho, hto, rfl, rfl⟩
  have hsame : ∀ x ≤ t, ∀ y, y ∈ rowOf s'.mid x ↔ y ∈ rowOf s.mid x := by
    intro x hx y
    rw [hmid]
    constructor
    · rintro (h' | ⟨o, _, oo, _, h4, h5, _, (⟨rfl, _⟩ | ⟨rfl, _⟩)⟩)
      · exact h'
      · omega
      · omega
    · exact Or.inl
  have hne : ∀ x y, x ≠ y → y ∈ rowOf s.mid x → Fill n adj n2o iluCode x y := fun x y hxy hy => (h.sound x y hy).resolve_left hxy
  refine ⟨h2, ?_, ?_, ?_, ?_, ?_, ?_, ?_⟩
  · intro x y hy
    rcases (hmid x y).1 hy with h' | ⟨o, ho, oo, hoo, _, _, _, (⟨_, rfl⟩ | ⟨_, rfl⟩)⟩
    · exact h.lt x y h'
    · exact h.lt t _ ho
    · exact h.lt t _ hoo
  · intro x y hy
    rcases (hmid x y).1 hy with h' | ⟨o, ho, oo, hoo, a1, a2, a3, hk⟩
    · exact (hmid y x).2 (Or.inl (h.symm x y h'))
    · exact (hmid y x).2 (Or.inr ⟨o, ho, oo, hoo, a1, a2, a3, hk.elim (fun e => Or.inr ⟨e.2, e.1⟩) (fun e => Or.inl ⟨e.2, e.1⟩)⟩)
  · intro x y hy
    rcases (hmid x y).1 hy with h' | ⟨o, ho, oo, hoo, a1, a2, a3, hk⟩
    · exact h.sound x y h'
    · right
      have hf : Fill n adj n2o iluCode o oo := Fill.fill a1 a2 (hne t o (by omega) ho) (hne t oo (by omega) hoo) a3
      rcases hk with ⟨rfl, rfl⟩ | ⟨rfl, rfl⟩
      · exact hf.symm
      · exact hf
  · intro x hx y hy he
    exact (hmid x y).2 (Or.inl (h.edge x hx y hy he))
  · intro c hc i hi j hj hci hij ha
    rw [hsame c (by omega)] at hi hj
    by_cases hct : c = t
    · subst hct
      exact (hmid i j).2 (Or.inr ⟨i, hi, j, hj, hci, hij, ha, Or.inr ⟨rfl, rfl⟩⟩)
    · exact (hmid i j).2 (Or.inl (h.closed c (by omega) i hi j hj hci hij ha))
  · intro x y
    rw [hlow, h.low]
    constructor
    · rintro (⟨a, b, c⟩ | ⟨a, b, rfl⟩)
      · exact ⟨by omega, b, (hsame y (by omega) x).2 c⟩
      · exact ⟨by omega, b, (hsame y (by omega) x).2 a⟩
    · rintro ⟨a, b, c⟩
      rw [hsame y (by omega)] at c
      by_cases hyt : y = t
      · subst hyt; exact Or.inr ⟨c, b, rfl⟩
      · exact Or.inl ⟨by omega, b, c⟩
  · intro x y
    rw [hupp, h.upp]
    constructor
    · rintro (⟨a, b, c⟩ | ⟨a, b, rfl⟩)
      · exact ⟨by omega, b, (hsame x (by omega) y).2 c⟩
      · exact ⟨by omega, b, (hsame x (by omega) y).2 a⟩
    · rintro ⟨a, b, c⟩
      rw [hsame x (by omega)] at c
      by_cases hyt : x = t
      · subst hyt; exact Or.inr ⟨c, b, rfl⟩
      · exact Or.inl ⟨by omega, b, c⟩

include hadj hre hord in
theorem columns_spec {enl : List (List Nat)} (he : EnlOk n adj iluCode enl) {mid : List (List Nat)} (hm : Rows n mid)
    (hi : ∀ p < n, ∀ q, q ∈ rowOf mid p ↔ q < n ∧ (q = p ∨ rename n2o q ∈ rowOf adj (rename n2o p))) :
    ∃ s, foldRes (column ord iluCode enl n2o) ⟨mid, List.replicate n [], List.replicate n []⟩ (List.range n) = .ok s ∧
      ColsOk n s ∧ (∀ x y, y ∈ rowOf s.low x ↔ y < x ∧ Fill n adj n2o iluCode x y) ∧
      (∀ x y, y ∈ rowOf s.upp x ↔ x < y ∧ Fill n adj n2o iluCode x y) := by
  have hrep : Rows n (List.replicate n []) := ⟨by simp, fun i => by rw [rowOf_replicate]; simp⟩
  have hx : ∀ x y, y ∈ rowOf mid x → x < n := fun x y hy => by have := rowOf_lt hy; rwa [hm.1] at this
  have h0 : ColInv n adj n2o iluCode 0 ⟨mid, List.replicate n [], List.replicate n []⟩ := by
    refine ⟨⟨hm, hrep, hrep⟩, ?_, ?_, ?_, ?_, ?_, ?_, ?_⟩
    · intro x y hy; exact ((hi x (hx x y hy) y).1 hy).1
    · intro x y hy
      have hxn := hx x y hy
      obtain ⟨hyn, h⟩ := (hi x hxn y).1 hy
      refine (hi y hyn x).2 ⟨hxn, ?_⟩
      rcases h with h | h
      · exact Or.inl h.symm
      · exact Or.inr (hadj.2 _ (hre.newLt x hxn) _ h).2
    · intro x y hy
      have hxn := hx x y hy
      obtain ⟨hyn, h⟩ := (hi x hxn y).1 hy
      by_cases e : x = y
      · exact Or.inl e
      · right
        rcases h with h | h
        · exact absurd h.symm e
        · exact Fill.edge hxn hyn e h
    · intro x hxn y hyn h; exact (hi x hxn y).2 ⟨hyn, Or.inr h⟩
    · intro c hc; omega
    · intro x y; rw [rowOf_replicate]; simp
    · intro x y; rw [rowOf_replicate]; simp
  obtain ⟨s, h1, h2⟩ := foldRes_total (column ord iluCode enl n2o) (ColInv n adj n2o iluCode) (List.range n) _ h0 (by
    intro t x a hx ha
    obtain ⟨htl, hxt⟩ := List.getElem?_eq_some_iff.1 hx
    rw [List.getElem_range] at hxt
    subst hxt
    exact colInv_step hre hord he (by simpa using htl) ha)
  rw [List.length_range] at h2
  have hx2 : ∀ x y, y ∈ rowOf s.mid x → x < n := fun x y hy => by have := rowOf_lt hy; rwa [h2.ok.1.1] at this
  have hcomplete : ∀ x y, Fill n adj n2o iluCode x y → x ≠ y ∧ y ∈ rowOf s.mid x := by
    intro x y hf
    induction hf with
    | edge hp hq hpq he => exact ⟨hpq, h2.edge _ hp _ hq he⟩
    | fill hci hij _ _ ha ih1 ih2 =>
      exact ⟨by omega, h2.closed _ (hx2 _ _ ih1.2) _ ih1.2 _ ih2.2 hci hij ha⟩
    | symm _ ih => exact ⟨Ne.symm ih.1, h2.symm _ _ ih.2⟩
  refine ⟨s, h1, h2.ok, ?_, ?_⟩
  · intro x y
    rw [h2.low]
    constructor
    · rintro ⟨_, b, c⟩
      exact ⟨b, ((h2.sound y x c).resolve_left (by omega)).symm⟩
    · rintro ⟨b, c⟩
      have := (hcomplete y x c.symm).2
      exact ⟨hx2 _ _ this, b, this⟩
  · intro x y
    rw [h2.upp]
    constructor
    · rintro ⟨_, b, c⟩
      exact ⟨b, (h2.sound x y c).resolve_left (by omega)⟩
    · rintro ⟨b, c⟩
      have := (hcomplete x y c).2
      exact ⟨hx2 _ _ this, b, this⟩

/-! ### sorted rows -/

theorem mem_sortNat (l : List Nat) (x : Nat) : x ∈ sortNat l ↔ x ∈ l := List.mem_mergeSort

theorem sortNat_sorted {l : List Nat} (h : l.Nodup) : (sortNat l).Pairwise (· < ·) := by
  have h1 : (sortNat l).Pairwise (fun a b => decide (a ≤ b) = true) :=
    List.pairwise_mergeSort (by intro a b c; simp only [decide_eq_true_eq]; omega)
      (by intro a b; simp only [Bool.or_eq_true, decide_eq_true_eq]; omega) l
  have h2 : (sortNat l).Nodup := (List.mergeSort_perm l _).nodup_iff.2 h
  rw [List.Nodup] at h2
  refine (h1.and h2).imp ?_
  intro a b hab
  have := hab.1; have h3 := hab.2
  simp only [decide_eq_true_eq] at this
  omega

theorem forRanks_pure {β γ : Type} (f : Nat → β → Res γ) (g : β → γ) : ∀ (l : List β) (r : Nat),
    (∀ i x, x ∈ l → f i x = .ok (g x)) → forRanks f r l = .ok (l.map g) := by
  intro l
  induction l with
  | nil => intro r _; rfl
  | cons x xs ih =>
    intro r h
    simp only [forRanks, h r x (by simp), Res.ok_bind, ih (r + 1) (fun i y hy => h i y (by simp [hy])), List.map_cons]

include hre hord in
theorem sortedRows_spec {rows : List (List Nat)} (hr : Rows n rows) (hlt : ∀ x y, y ∈ rowOf rows x → y < n) :
    ∃ new old, sortedRows ord n2o rows n = .ok (new, old) ∧ new.length = n ∧ old.length = n ∧
      (∀ i < n, (rowOf new i).Pairwise (· < ·)) ∧ (∀ i < n, ∀ y, y ∈ rowOf new i ↔ y ∈ rowOf rows i) ∧
      (∀ i < n, old[rename n2o i]? = some ((rowOf new i).map (rename n2o))) := by
  have := foldRes_total (fun (t : List (List Nat) × List (List Nat)) iCellP => do
      let iCell ← reorder n2o iCellP
      let s ← idx rows iCellP
      let row := sortNat (ord s)
      let old ← forRanks (fun _ v => reorder n2o v) 0 row
      let prev ← idx t.2 iCell
      Res.ok (t.1 ++ [row], t.2.set iCell (prev ++ old)))
    (fun t e => e.1 = (List.range t).map (fun i => sortNat (ord (rowOf rows i))) ∧ e.2.length = n ∧
      ∀ i < n, rowOf e.2 (rename n2o i) = if i < t then (sortNat (ord (rowOf rows i))).map (rename n2o) else [])
    (List.range n) ([], List.replicate n []) ⟨rfl, by simp, fun i hi => by rw [rowOf_replicate]; simp⟩ (by
      rintro t x ⟨e1, e2⟩ hx ⟨g1, g2, g3⟩
      obtain ⟨htl, hxt⟩ := List.getElem?_eq_some_iff.1 hx
      rw [List.getElem_range] at hxt
      subst hxt
      have ht : t < n := by simpa using htl
      have hl : rename n2o t < e2.length := by rw [g2]; exact hre.newLt t ht
      simp only at g1 g2 g3
      refine ⟨(e1 ++ [sortNat (ord (rowOf rows t))],
        e2.set (rename n2o t) (rowOf e2 (rename n2o t) ++ (sortNat (ord (rowOf rows t))).map (rename n2o))), ?_, ?_, ?_, ?_⟩
      · simp only
        rw [hre.new t ht, Res.ok_bind, rowOf_idx (by rw [hr.1]; exact ht), Res.ok_bind,
          forRanks_pure _ (rename n2o) _ _ (fun i x hx => hre.new x (hlt t x
            ((hord _).mem_iff.1 ((mem_sortNat _ _).1 hx)))), Res.ok_bind, rowOf_idx hl, Res.ok_bind]
      · simp only [g1, List.range_succ, List.map_append, List.map_cons, List.map_nil]
      · simp only [List.length_set, g2]
      · intro i hi
        simp only
        rw [rowOf_set hl]
        by_cases hc : i = t
        · subst hc
          rw [if_pos rfl, if_pos (by omega), g3 i hi, if_neg (by omega), List.nil_append]
        · have : rename n2o i ≠ rename n2o t := fun e => hc (by rw [← hre.newOld i hi, ← hre.newOld t ht, e])
          rw [if_neg this, g3 i hi]
          by_cases hl : i < t
          · rw [if_pos hl, if_pos (by omega)]
          · rw [if_neg hl, if_neg (by omega)])
  obtain ⟨⟨new, old⟩, h1, h2, h3, h4⟩ := this
  rw [List.length_range] at h2 h4
  simp only at h2 h3 h4
  have hrow : ∀ i < n, rowOf new i = sortNat (ord (rowOf rows i)) := by
    intro i hi
    rw [h2, rowOf, List.getD_eq_getElem?_getD, List.getElem?_map, List.getElem?_range hi]; rfl
  refine ⟨new, old, h1, by rw [h2]; simp, h3, ?_, ?_, ?_⟩
  · intro i hi
    rw [hrow i hi]
    exact sortNat_sorted ((hord _).nodup_iff.2 (hr.2 i))
  · intro i hi y
    rw [hrow i hi, mem_sortNat, (hord _).mem_iff]
  · intro i hi
    have := h4 i hi
    rw [if_pos hi] at this
    rw [rowOf_get (by rw [h3]; exact hre.newLt i hi), this, hrow i hi]

/-- the number of entries is the number of pairs -/
theorem total_length {re : Re n o2n n2o} {new old : List (List Nat)} (hol : old.length = n)
    (hs : ∀ i < n, (rowOf new i).Pairwise (· < ·)) (hlt : ∀ i < n, ∀ y ∈ rowOf new i, y < n)
    (ho : ∀ i < n, old[rename n2o i]? = some ((rowOf new i).map (rename n2o))) :
    (old.map List.length).sum = ∑ i ∈ Finset.range n, ∑ j ∈ Finset.range n, if j ∈ rowOf new i then 1 else 0 := by
  have h1 : (old.map List.length).sum = ∑ v ∈ Finset.range n, (rowOf old v).length := by
    have : old = (List.range n).map (rowOf old) := by
      apply List.ext_getElem?
      intro i
      rw [List.getElem?_map]
      by_cases hi : i < n
      · rw [List.getElem?_range hi, rowOf_get (by omega)]; rfl
      · rw [List.getElem?_eq_none (by omega), List.getElem?_eq_none (by simp; omega)]; rfl
    conv_lhs => rw [this]
    rw [List.map_map, list_sum_range _ List.nodup_range n (fun x hx => List.mem_range.1 hx)]
    apply Finset.sum_congr rfl
    intro k hk
    rw [if_pos (List.mem_range.2 (Finset.mem_range.1 hk))]; rfl
  have h2 : (∑ v ∈ Finset.range n, (rowOf old v).length) = ∑ i ∈ Finset.range n, (rowOf old (rename n2o i)).length := by
    symm
    apply Finset.sum_bij (fun i _ => rename n2o i)
    · intro i hi; exact Finset.mem_range.2 (re.newLt i (Finset.mem_range.1 hi))
    · intro i hi j hj e
      rw [← re.newOld i (Finset.mem_range.1 hi), ← re.newOld j (Finset.mem_range.1 hj), e]
    · intro v hv
      exact ⟨rename o2n v, Finset.mem_range.2 (re.oldLt v (Finset.mem_range.1 hv)), re.oldNew v (Finset.mem_range.1 hv)⟩
    · intro i _; rfl
  rw [h1, h2]
  apply Finset.sum_congr rfl
  intro i hi
  have hi := Finset.mem_range.1 hi
  have : rowOf old (rename n2o i) = (rowOf new i).map (rename n2o) := by
    rw [rowOf, List.getD_eq_getElem?_getD, ho i hi]; rfl
  rw [this, List.length_map, ← list_sum_range _ (nodup_of_sorted (hs i hi)) n (hlt i hi) (fun _ => 1)]
  simp

/-! ### positions -/

theorem lowerBoundNat_mem {row : List Nat} (hs : row.Pairwise (· < ·)) {v : Nat} (hv : v ∈ row) :
    ∃ q, lowerBoundNat row v = .ok q ∧ q < row.length ∧ row[q]? = some v := by
  obtain ⟨k, h1, _, h2, h3, h4⟩ := lowerBoundGo_spec (fun x => decide (x < v)) row
    (by
      intro i j x y hij hx hy hp
      obtain ⟨a1, a2⟩ := List.getElem?_eq_some_iff.1 hx
      obtain ⟨b1, b2⟩ := List.getElem?_eq_some_iff.1 hy
      have := List.pairwise_iff_getElem.1 hs i j a1 b1 hij
      simp only [decide_eq_true_eq] at hp ⊢; omega)
    row.length 0 (by omega) (by intro i x hi; omega) (by intro i x hi hi'; omega)
  obtain ⟨p, hp, e⟩ := List.mem_iff_getElem.1 hv
  have hkp : k ≤ p := by
    apply Nat.le_of_not_lt
    intro hc
    have := h3 p v hc (by rw [List.getElem?_eq_getElem hp, e])
    simp at this
  have hk : k < row.length := by omega
  refine ⟨k, by simpa [lowerBoundNat, lowerBound] using h1, hk, ?_⟩
  have h5 := h4 k row[k] (Nat.le_refl _) hk (List.getElem?_eq_getElem hk)
  simp only [decide_eq_false_iff_not] at h5
  have : k = p := by
    rcases Nat.lt_or_eq_of_le hkp with hlt | he
    · have := List.pairwise_iff_getElem.1 hs k p hk hp hlt; omega
    · exact he
  subst this
  rw [List.getElem?_eq_getElem hk, e]

theorem crossPos_spec {a b : List (List Nat)} (ha : a.length = n) (hb : b.length = n)
    (hsb : ∀ i < n, (rowOf b i).Pairwise (· < ·)) (hab : ∀ i < n, ∀ j ∈ rowOf a i, j < n ∧ i ∈ rowOf b j) :
    ∃ t, crossPos a b = .ok t ∧ ∀ i < n, ∃ r, t[i]? = some r ∧ r.length = (rowOf a i).length ∧
      ∀ (p j : Nat), (rowOf a i)[p]? = some j → ∃ q : Nat, r[p]? = some (q : Int) ∧ (rowOf b j)[q]? = some i := by
  have hin : ∀ i < n, ∃ r, forRanks (fun _ jP => do
      let other ← idx b jP
      let ret ← lowerBoundNat other i
      Res.ok (if ret ≠ other.length then (ret : Int) else -1)) 0 (rowOf a i) = .ok r ∧ r.length = (rowOf a i).length ∧
      ∀ (p j : Nat), (rowOf a i)[p]? = some j → ∃ q : Nat, r[p]? = some (q : Int) ∧ (rowOf b j)[q]? = some i := by
    intro i hi
    have hstep : ∀ j ∈ rowOf a i, ∃ q : Nat, (do
        let other ← idx b j
        let ret ← lowerBoundNat other i
        Res.ok (if ret ≠ other.length then (ret : Int) else -1)) = Res.ok (q : Int) ∧ (rowOf b j)[q]? = some i := by
      intro j hj
      obtain ⟨hjn, hij⟩ := hab i hi j hj
      obtain ⟨q, q1, q2, q3⟩ := lowerBoundNat_mem (hsb j hjn) hij
      refine ⟨q, ?_, q3⟩
      rw [rowOf_idx (by rw [hb]; exact hjn), Res.ok_bind, q1, Res.ok_bind, if_pos (by omega)]
    obtain ⟨r, hr⟩ := forRanks_total (fun _ jP => do
      let other ← idx b jP
      let ret ← lowerBoundNat other i
      Res.ok (if ret ≠ other.length then (ret : Int) else -1)) (rowOf a i) 0 (by
        intro p j hj
        obtain ⟨q, hq, _⟩ := hstep j (List.mem_of_getElem? hj)
        exact ⟨_, hq⟩)
    obtain ⟨r1, r2⟩ := (forRanks_ok _ _ _ _).1 hr
    refine ⟨r, hr, r1, ?_⟩
    intro p j hj
    obtain ⟨y, y1, y2⟩ := r2 p j hj
    obtain ⟨q, hq, hq2⟩ := hstep j (List.mem_of_getElem? hj)
    rw [hq] at y2
    obtain e := Res.ok.inj y2
    subst e
    exact ⟨q, y1, hq2⟩
  have hrow : ∀ (i : Nat) (x : List Nat), a[i]? = some x → i < n ∧ x = rowOf a i := by
    intro i x hx
    have hi : i < n := by have := (List.getElem?_eq_some_iff.1 hx).1; omega
    rw [rowOf_get (by omega)] at hx
    exact ⟨hi, (Option.some.inj hx).symm⟩
  obtain ⟨t, ht⟩ := forRanks_total (fun iP (row : List Nat) => forRanks (fun _ jP => do
      let other ← idx b jP
      let ret ← lowerBoundNat other iP
      Res.ok (if ret ≠ other.length then (ret : Int) else -1)) 0 row) a 0 (by
        intro i x hx
        obtain ⟨hi, rfl⟩ := hrow i x hx
        obtain ⟨r, hr, _⟩ := hin i hi
        exact ⟨r, by rw [Nat.zero_add]; exact hr⟩)
  refine ⟨t, ht, ?_⟩
  obtain ⟨t1, t2⟩ := (forRanks_ok _ _ _ _).1 ht
  intro i hi
  obtain ⟨y, y1, y2⟩ := t2 i (rowOf a i) (rowOf_get (by omega))
  obtain ⟨r, hr, r1, r2⟩ := hin i hi
  rw [Nat.zero_add, hr] at y2
  obtain e := Res.ok.inj y2
  subst e
  exact ⟨r, y1, r1, r2⟩

include hadj hre in
theorem fullRowPos_spec {low upp : List (List Nat)} (hl : low.length = n) (hu : upp.length = n)
    (hsl : ∀ i < n, (rowOf low i).Pairwise (· < ·)) (hsu : ∀ i < n, (rowOf upp i).Pairwise (· < ·))
    (hcov : ∀ i < n, ∀ j < n, rename n2o j ∈ rowOf adj (rename n2o i) → (j < i → j ∈ rowOf low i) ∧ (i < j → j ∈ rowOf upp i)) :
    ∃ t, fullRowPos adj o2n low upp n = .ok t ∧ t.length = n ∧ ∀ i < n, ∃ r, t[i]? = some r ∧ r.length = (rowOf adj i).length ∧
      ∀ (p j : Nat), (rowOf adj i)[p]? = some j →
        ∃ pos, r[p]? = some pos ∧ RowPosOk low upp (rename o2n i) (rename o2n j) pos := by
  have hstep : ∀ i < n, ∀ j ∈ rowOf adj i, ∃ pos : Int, (do
      let jP ← reorder o2n j
      if jP < rename o2n i then do
        let r ← idx low (rename o2n i)
        let ret ← lowerBoundNat r jP
        Res.assert (ret ≠ r.length)
        Res.ok ((ret : Int) + 1)
      else if jP > rename o2n i then do
        let r ← idx upp (rename o2n i)
        let ret ← lowerBoundNat r jP
        Res.assert (ret ≠ r.length)
        let l ← idx low (rename o2n i)
        Res.ok ((ret : Int) + l.length + 1)
      else Res.ok (-1)) = Res.ok pos ∧ RowPosOk low upp (rename o2n i) (rename o2n j) pos := by
    intro i hi j hj
    have hjn := (hadj.2 i hi j hj).1
    have hi' := hre.oldLt i hi
    have hj' := hre.oldLt j hjn
    have hc := hcov _ hi' _ hj' (by rw [hre.oldNew i hi, hre.oldNew j hjn]; exact hj)
    rw [hre.old j hjn, Res.ok_bind]
    by_cases h1 : rename o2n j < rename o2n i
    · obtain ⟨q, q1, q2, q3⟩ := lowerBoundNat_mem (hsl _ hi') (hc.1 h1)
      rw [if_pos h1, rowOf_idx (by rw [hl]; exact hi'), Res.ok_bind, q1, Res.ok_bind, Res.assert_true _ (by omega), Res.ok_bind]
      exact ⟨_, rfl, Or.inl ⟨h1, q, rfl, q3⟩⟩
    · rw [if_neg h1]
      by_cases h2 : rename o2n j > rename o2n i
      · obtain ⟨q, q1, q2, q3⟩ := lowerBoundNat_mem (hsu _ hi') (hc.2 h2)
        rw [if_pos h2, rowOf_idx (by rw [hu]; exact hi'), Res.ok_bind, q1, Res.ok_bind, Res.assert_true _ (by omega), Res.ok_bind,
          rowOf_idx (by rw [hl]; exact hi'), Res.ok_bind]
        exact ⟨_, rfl, Or.inr (Or.inl ⟨h2, q, rfl, q3⟩)⟩
      · rw [if_neg h2]
        exact ⟨_, rfl, Or.inr (Or.inr ⟨by omega, rfl⟩)⟩
  have hin : ∀ i < n, ∃ r, (do
      let iP ← reorder o2n i
      let row ← idx adj i
      forRanks (fun _ j => do
        let jP ← reorder o2n j
        if jP < iP then do
          let r ← idx low iP
          let ret ← lowerBoundNat r jP
          Res.assert (ret ≠ r.length)
          Res.ok ((ret : Int) + 1)
        else if jP > iP then do
          let r ← idx upp iP
          let ret ← lowerBoundNat r jP
          Res.assert (ret ≠ r.length)
          let l ← idx low iP
          Res.ok ((ret : Int) + l.length + 1)
        else Res.ok (-1)) 0 row) = Res.ok r ∧ r.length = (rowOf adj i).length ∧
      ∀ (p j : Nat), (rowOf adj i)[p]? = some j →
        ∃ pos, r[p]? = some pos ∧ RowPosOk low upp (rename o2n i) (rename o2n j) pos := by
    intro i hi
    rw [hre.old i hi, Res.ok_bind, rowOf_idx (by rw [hadj.1]; exact hi), Res.ok_bind]
    obtain ⟨r, hr⟩ := forRanks_total (fun _ j => do
        let jP ← reorder o2n j
        if jP < rename o2n i then do
          let r ← idx low (rename o2n i)
          let ret ← lowerBoundNat r jP
          Res.assert (ret ≠ r.length)
          Res.ok ((ret : Int) + 1)
        else if jP > rename o2n i then do
          let r ← idx upp (rename o2n i)
          let ret ← lowerBoundNat r jP
          Res.assert (ret ≠ r.length)
          let l ← idx low (rename o2n i)
          Res.ok ((ret : Int) + l.length + 1)
        else Res.ok (-1)) (rowOf adj i) 0 (by
          intro p j hj
          obtain ⟨pos, hp, _⟩ := hstep i hi j (List.mem_of_getElem? hj)
          exact ⟨pos, hp⟩)
    obtain ⟨r1, r2⟩ := (forRanks_ok _ _ _ _).1 hr
    refine ⟨r, hr, r1, ?_⟩
    intro p j hj
    obtain ⟨y, y1, y2⟩ := r2 p j hj
    obtain ⟨pos, hp, hp2⟩ := hstep i hi j (List.mem_of_getElem? hj)
    have := hp.symm.trans y2
    obtain e := Res.ok.inj this
    subst e
    exact ⟨pos, y1, hp2⟩
  have hrange : ∀ (i x : Nat), (List.range n)[i]? = some x → x < n ∧ x = i := by
    intro i x hx
    obtain ⟨h1, h2⟩ := List.getElem?_eq_some_iff.1 hx
    rw [List.getElem_range] at h2
    rw [List.length_range] at h1
    omega
  unfold fullRowPos
  obtain ⟨t, ht⟩ := forRanks_total (fun (_ : Nat) i => do
      let iP ← reorder o2n i
      let row ← idx adj i
      forRanks (fun _ j => do
        let jP ← reorder o2n j
        if jP < iP then do
          let r ← idx low iP
          let ret ← lowerBoundNat r jP
          Res.assert (ret ≠ r.length)
          Res.ok ((ret : Int) + 1)
        else if jP > iP then do
          let r ← idx upp iP
          let ret ← lowerBoundNat r jP
          Res.assert (ret ≠ r.length)
          let l ← idx low iP
          Res.ok ((ret : Int) + l.length + 1)
        else Res.ok (-1)) 0 row) (List.range n) 0 (by
          intro i x hx
          obtain ⟨hi, rfl⟩ := hrange i x hx
          obtain ⟨r, hr, _⟩ := hin x hi
          exact ⟨r, hr⟩)
  refine ⟨t, ht, ?_⟩
  obtain ⟨t1, t2⟩ := (forRanks_ok _ _ _ _).1 ht
  refine ⟨by rw [t1, List.length_range], ?_⟩
  intro i hi
  obtain ⟨y, y1, y2⟩ := t2 i i (List.getElem?_range hi)
  obtain ⟨r, hr, r1, r2⟩ := hin i hi
  have := hr.symm.trans y2
  obtain e := Res.ok.inj this
  subst e
  exact ⟨r, y1, r1, r2⟩

/-! ### the whole -/

theorem symbolic_spec (hadj : SymAdj n adj) (hr : IsReorder n o2n n2o) (hord : ∀ l, (ord l).Perm l) (hcode : iluCode ≤ 5) :
    ∃ S, symbolic ord adj o2n n2o n iluCode = .ok S ∧ S.n = n ∧ S.o2n = o2n ∧ S.n2o = n2o ∧ WF S ∧
      (∀ i < n, ∀ j, j ∈ rowOf S.low i ↔ j < i ∧ Fill n adj n2o iluCode i j) ∧
      (∀ i < n, ∀ j, j ∈ rowOf S.upp i ↔ i < j ∧ Fill n adj n2o iluCode i j) ∧
      S.rowPos.length = n ∧ ∀ i < n, ∃ r, S.rowPos[i]? = some r ∧ r.length = (rowOf adj i).length ∧
        ∀ (p j : Nat), (rowOf adj i)[p]? = some j →
          ∃ pos, r[p]? = some pos ∧ RowPosOk S.low S.upp (rename o2n i) (rename o2n j) pos := by
  have hre := isReorder_re hr
  obtain ⟨enl, e1, e2⟩ := enlarge_spec (iluCode := iluCode) hadj hord hcode
  obtain ⟨mid, m1, m2, m3⟩ := initCols_spec hadj hre
  obtain ⟨s, s1, s2, s3, s4⟩ := columns_spec hadj hre hord (iluCode := iluCode) (enl := enl) e2 m2 m3
  have hfill : ∀ x y, Fill n adj n2o iluCode x y → x < n ∧ y < n := by
    intro x y hf
    induction hf with
    | edge hp hq _ _ => exact ⟨hp, hq⟩
    | fill _ _ _ _ _ ih1 ih2 => exact ⟨ih1.2, ih2.2⟩
    | symm _ ih => exact ⟨ih.2, ih.1⟩
  obtain ⟨low, lowOld, l1, l2, l3, l4, l5, l6⟩ := sortedRows_spec hre hord s2.2.1 (fun x y hy => by
    have := hfill _ _ ((s3 x y).1 hy).2; omega)
  obtain ⟨upp, uppOld, u1, u2, u3, u4, u5, u6⟩ := sortedRows_spec hre hord s2.2.2 (fun x y hy => by
    have := hfill _ _ ((s4 x y).1 hy).2; omega)
  have hlow : ∀ i < n, ∀ j, j ∈ rowOf low i ↔ j < i ∧ Fill n adj n2o iluCode i j := fun i hi j => by rw [l5 i hi, s3]
  have hupp : ∀ i < n, ∀ j, j ∈ rowOf upp i ↔ i < j ∧ Fill n adj n2o iluCode i j := fun i hi j => by rw [u5 i hi, s4]
  have htr : ∀ i < n, ∀ j < n, j ∈ rowOf low i ↔ i ∈ rowOf upp j := by
    intro i hi j hj
    rw [hlow i hi, hupp j hj]
    exact ⟨fun h => ⟨h.1, h.2.symm⟩, fun h => ⟨h.1, h.2.symm⟩⟩
  have hlown : ∀ i < n, ∀ y ∈ rowOf low i, y < n := fun i hi y hy => (hfill _ _ ((hlow i hi y).1 hy).2).2
  have huppn : ∀ i < n, ∀ y ∈ rowOf upp i, y < n := fun i hi y hy => (hfill _ _ ((hupp i hi y).1 hy).2).2
  have hsum : (lowOld.map List.length).sum = (uppOld.map List.length).sum := by
    rw [total_length (re := hre) l3 l4 hlown l6, total_length (re := hre) u3 u4 huppn u6, Finset.sum_comm]
    apply Finset.sum_congr rfl
    intro j hj
    apply Finset.sum_congr rfl
    intro i hi
    simp only [htr i (Finset.mem_range.1 hi) j (Finset.mem_range.1 hj)]
  obtain ⟨c1, c2, c3⟩ := crossPos_spec l2 u2 u4 (fun i hi j hj =>
    ⟨hlown i hi j hj, (htr i hi j (hlown i hi j hj)).1 hj⟩)
  obtain ⟨d1, d2, d3⟩ := crossPos_spec u2 l2 l4 (fun i hi j hj =>
    ⟨huppn i hi j hj, (htr j (huppn i hi j hj) i hi).2 hj⟩)
  obtain ⟨t, t1, t2, t3⟩ := fullRowPos_spec hadj hre l2 u2 l4 u4 (by
    intro i hi j hj he
    exact ⟨fun h => (hlow i hi j).2 ⟨h, Fill.edge hi hj (by omega) he⟩, fun h => (hupp i hi j).2 ⟨h, Fill.edge hi hj (by omega) he⟩⟩)
  refine ⟨⟨n, o2n, n2o, lowOld, uppOld, low, upp, c1, d1, t⟩, ?_, rfl, rfl, rfl, ?_, hlow, hupp, t2, t3⟩
  · unfold symbolic
    rw [e1, Res.ok_bind, m1, Res.ok_bind, s1, Res.ok_bind, l1, Res.ok_bind]
    simp only
    rw [u1, Res.ok_bind]
    simp only
    rw [Res.assert_true _ hsum, Res.ok_bind, c2, Res.ok_bind, d2, Res.ok_bind, t1, Res.ok_bind]
  · exact ⟨hr, l2, u2, l4, u4, fun i hi j hj => ((hlow i hi j).1 hj).1,
      fun i hi j hj => ⟨((hupp i hi j).1 hj).1, huppn i hi j hj⟩, htr, l6, u6, c3, d3⟩

end

end DNDSR.Direct
