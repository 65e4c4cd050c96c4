import Verif.Spec.Sweeps
import Verif.Proof.FluxSum
import Verif.Props.DirectLU
import Mathlib.Data.List.GetD
import Mathlib.Algebra.BigOperators.Group.List.Basic

/-! Helper lemmas for `Verif.Props.Sweeps`: one rank. -/

namespace DNDSR.Sweep

open DNDSR.Elem DNDSR.IMap DNDSR.MeshAdj DNDSR.Faces
open DNDSR.Flux (nSides at64_ok)
open DNDSR.Direct (invertDiag)
open Matrix

variable {m : Nat} {K : Type} [Field K] [LinearOrder K]

/-! ## Blocks -/

theorem left_eq {J : JDiag m K} {l : Nat} {A : Matrix (Fin m) (Fin m) K} (h : J.getValue l = .ok A) (v : Fin m → K) :
    J.left l v = .ok (A *ᵥ v) := by
  unfold JDiag.getValue at h
  unfold JDiag.left
  cases hb : J.block
  · simp only [hb, Bool.false_eq_true, if_false] at h ⊢
    obtain ⟨d, h1, h2⟩ := (Res.bind_ok_iff _ _ _).1 h
    have := Res.ok.inj h2
    subst this
    rw [h1]
    simp only [Res.ok_bind]
    congr 1
    funext k
    rw [mulVec_diagonal]
  · simp only [hb, if_true] at h ⊢
    rw [h]; rfl

theorem invertDiag_some {A : Matrix (Fin m) (Fin m) K} (h1 : ∀ k, A k k ≠ 0) (h2 : IsUnit A.det) : ∃ w, invertDiag A = some w := by
  have := (DNDSR.Direct.invertDiag_accepts A).2 ⟨h2, h1⟩
  exact Option.ne_none_iff_exists'.1 this

theorem size_of_value {J : JDiag m K} {l : Nat} {A : Matrix (Fin m) (Fin m) K} (h : J.getValue l = .ok A) :
    (J.block = true → J.data[l]? = some A) ∧ (J.block = false → ∃ d, J.diag[l]? = some d ∧ A = diagonal d) := by
  unfold JDiag.getValue at h
  constructor
  · intro hb
    rw [if_pos hb] at h
    exact (idx_ok_iff _ _ _).1 h
  · intro hb
    rw [if_neg (by simp [hb])] at h
    obtain ⟨d, h1, h2⟩ := (Res.bind_ok_iff _ _ _).1 h
    exact ⟨d, (idx_ok_iff _ _ _).1 h1, (Res.ok.inj h2).symm⟩

/-- what `GetInvert` leaves as it was -/
def Same (J J' : JDiag m K) : Prop := J'.block = J.block ∧ J'.data = J.data ∧ J'.diag = J.diag

theorem Same.value {J J' : JDiag m K} (h : Same J J') (l : Nat) : J'.getValue l = J.getValue l := by
  simp only [JDiag.getValue, h.1, h.2.1, h.2.2]

theorem getInvert_same {J J' : JDiag m K} (h : J.getInvert = .ok J') : Same J J' ∧ J'.hasInvert = true := by
  unfold JDiag.getInvert at h
  split at h
  · rename_i hi
    cases Res.ok.inj h
    exact ⟨⟨rfl, rfl, rfl⟩, hi⟩
  · split at h
    · obtain ⟨w, _, h2⟩ := (Res.bind_ok_iff _ _ _).1 h
      have := Res.ok.inj h2
      subst this
      exact ⟨⟨rfl, rfl, rfl⟩, rfl⟩
    · obtain ⟨w, _, h2⟩ := (Res.bind_ok_iff _ _ _).1 h
      have := Res.ok.inj h2
      subst this
      exact ⟨⟨rfl, rfl, rfl⟩, rfl⟩

theorem getInvert_sound {J J' : JDiag m K} (hJ : J.Sound) (h : J.getInvert = .ok J') : J'.Sound := by
  unfold JDiag.getInvert at h
  split at h
  · cases Res.ok.inj h
    exact hJ
  · split at h
    · rename_i hb
      obtain ⟨w, h1, h2⟩ := (Res.bind_ok_iff _ _ _).1 h
      have := Res.ok.inj h2
      subst this
      intro _
      simp only [hb, if_true]
      obtain ⟨hl, hw⟩ := (forRanks_ok _ _ _ _).1 h1
      refine ⟨hl, ?_⟩
      intro l A B hA hB
      obtain ⟨y, hy, this⟩ := hw l A hA
      have hB' : w[l]? = some B := hB
      rw [hB'] at hy
      cases hy
      unfold invertBlock at this
      split at this
      · rename_i w' hw'
        cases Res.ok.inj this
        exact DNDSR.Direct.invertDiag_inverts _ _ hw'
      · cases this
    · rename_i hb
      obtain ⟨w, h1, h2⟩ := (Res.bind_ok_iff _ _ _).1 h
      have := Res.ok.inj h2
      subst this
      intro _
      simp only [hb, if_false]
      obtain ⟨hl, hw⟩ := (forRanks_ok _ _ _ _).1 h1
      refine ⟨hl, ?_⟩
      intro l A B hA hB k
      obtain ⟨y, hy, this⟩ := hw l A hA
      have hB' : w[l]? = some B := hB
      rw [hB'] at hy
      cases hy
      unfold invertVec at this
      obtain ⟨_, h3, h4⟩ := (Res.bind_ok_iff _ _ _).1 this
      have h5 := (Res.assert_ok_iff _ _).1 h3
      have := Res.ok.inj h4
      subst this
      exact mul_inv_cancel₀ (h5 k)

theorem leftInvert_eq {J : JDiag m K} (hJ : J.Sound) (hi : J.hasInvert = true) {l : Nat} {A : Matrix (Fin m) (Fin m) K}
    (h : J.getValue l = .ok A) (v : Fin m → K) : J.leftInvert l v = .ok (A⁻¹ *ᵥ v) := by
  have hs := hJ hi
  obtain ⟨h1, h2⟩ := size_of_value h
  unfold JDiag.leftInvert
  cases hb : J.block
  · simp only [hb, Bool.false_eq_true, if_false] at hs ⊢
    obtain ⟨d, h3, rfl⟩ := h2 hb
    have hl : l < J.diagInv.length := by rw [hs.1]; exact (List.getElem?_eq_some_iff.1 h3).1
    have h4 := List.getElem?_eq_getElem hl
    have h5 := hs.2 l _ _ h3 h4
    rw [(idx_ok_iff _ _ _).2 h4]
    simp only [Res.ok_bind]
    have : (diagonal d)⁻¹ = diagonal J.diagInv[l] := by
      apply inv_eq_right_inv
      rw [diagonal_mul_diagonal, ← diagonal_one]
      congr 1
      funext k
      exact h5 k
    rw [this]
    congr 1
    funext k
    rw [mulVec_diagonal]
  · simp only [hb, if_true] at hs ⊢
    have h3 := h1 hb
    have hl : l < J.dataInv.length := by rw [hs.1]; exact (List.getElem?_eq_some_iff.1 h3).1
    have h4 := List.getElem?_eq_getElem hl
    have h5 := (hs.2 l _ _ h3 h4).1
    rw [(idx_ok_iff _ _ _).2 h4]
    simp only [Res.ok_bind]
    rw [inv_eq_right_inv h5]

/-- `GetInvert` returns if the blocks can be inverted -/
theorem getInvert_returns {J : JDiag m K} {n : Nat} (hn : (J.block = true → J.data.length = n) ∧ (J.block = false → J.diag.length = n))
    (h : ∀ l < n, ∃ A, J.getValue l = .ok A ∧ (∀ k, A k k ≠ 0) ∧ IsUnit A.det) : ∃ J', J.getInvert = .ok J' := by
  unfold JDiag.getInvert
  split
  · exact ⟨_, rfl⟩
  · split
    · rename_i hb
      obtain ⟨w, hw, _⟩ := N2C.forRanks_all (fun _ A => invertBlock A) (fun _ _ _ => True) J.data (by
        intro l A hA
        have hl : l < n := by rw [← hn.1 hb]; exact (List.getElem?_eq_some_iff.1 hA).1
        obtain ⟨A', h1, h2, h3⟩ := h l hl
        have := (size_of_value h1).1 hb
        rw [hA] at this; cases this
        obtain ⟨w, hw⟩ := invertDiag_some h2 h3
        exact ⟨w, by simp [invertBlock, hw], trivial⟩)
      rw [hw]
      exact ⟨_, rfl⟩
    · rename_i hb
      simp only [Bool.not_eq_true] at hb
      obtain ⟨w, hw, _⟩ := N2C.forRanks_all (fun _ d => invertVec d) (fun _ _ _ => True) J.diag (by
        intro l d hd
        have hl : l < n := by rw [← hn.2 hb]; exact (List.getElem?_eq_some_iff.1 hd).1
        obtain ⟨A', h1, h2, h3⟩ := h l hl
        obtain ⟨d', h4, rfl⟩ := (size_of_value h1).2 hb
        rw [hd] at h4; cases h4
        refine ⟨fun k => (d k)⁻¹, ?_, trivial⟩
        simp only [invertVec]
        rw [Res.assert_true _ (fun k => by have := h2 k; rwa [diagonal_apply_eq] at this)]
        rfl)
      rw [hw]
      exact ⟨_, rfl⟩

/-! ## Rows -/

/-- the neighbours of a cell in local numbers, with the couplings -/
def FitRow (S : Sys m K) (l len : Nat) (row : List Int) (nbr : Nat → Option (Nat × ((Fin m → K) → Fin m → K))) : Prop :=
  ∀ (j : Nat) (e : Int), row[j]? = some e → ∃ f, at64 S.faces e = .ok f ∧
    ((nbr j = none ∧ (if f.first = (l : Int) then f.second else f.first) = unInit) ∨
     ∃ (o : Nat) (c : Bool → (Fin m → K) → Fin m → K), nbr j = some (o, c (if f.first = (l : Int) then false else true)) ∧ at64 S.couple e = .ok c ∧
      (if f.first = (l : Int) then f.second else f.first) = o ∧ o < len)

/-- the sum over a row -/
def rowSum (keep : Int → Bool) (nbr : Nat → Option (Nat × ((Fin m → K) → Fin m → K))) (n : Nat) (x : Nat → Fin m → K) : Fin m → K :=
  ∑ j ∈ Finset.range n, match nbr j with
    | none => 0
    | some p => if keep p.1 = true then p.2 (x p.1) else 0

theorem rowLoop_spec (S : Sys m K) (keep : Int → Bool) (l : Nat) (x : List (Fin m → K)) : ∀ (row : List Int)
    (nbr : Nat → Option (Nat × ((Fin m → K) → Fin m → K))) (buf : Fin m → K), FitRow S l x.length row nbr →
    rowLoop S keep l x row buf = .ok (buf - rowSum keep nbr row.length fun o => x.getD o 0) := by
  intro row
  induction row with
  | nil => intro nbr buf _; simp [rowLoop, rowSum]
  | cons e es ih =>
      intro nbr buf h
      have hsum : rowSum keep nbr (e :: es).length (fun o => x.getD o 0) = rowSum keep (fun j => nbr (j + 1)) es.length (fun o => x.getD o 0) +
          (match nbr 0 with | none => 0 | some p => if keep p.1 = true then p.2 (x.getD p.1 0) else 0) := by
        rw [rowSum, List.length_cons, Finset.sum_range_succ']; rfl
      have htail : FitRow S l x.length es (fun j => nbr (j + 1)) := fun j e he => h (j + 1) e (by simpa using he)
      rw [hsum]
      obtain ⟨f, h1, h2⟩ := h 0 e rfl
      simp only [rowLoop, h1, Res.ok_bind]
      rcases h2 with ⟨h2, h3⟩ | ⟨o, c, h2, h3, h4, h5⟩
      · rw [if_neg (by rw [h3]; simp), ih _ buf htail, h2, add_zero]
      · rw [h4]
        have hm : (match nbr 0 with | none => 0 | some p => if keep p.1 = true then p.2 (x.getD p.1 0) else 0) =
            if keep (o : Int) = true then c (if f.first = (l : Int) then false else true) (x.getD o 0) else 0 := by rw [h2]
        rw [hm]
        have hu : ((o : Int)) ≠ unInit := by have := unInit_neg; omega
        have hx : at64 x (o : Int) = .ok (x.getD o 0) := by
          rw [at64_ok (List.getElem?_eq_getElem h5), List.getD_eq_getElem _ _ h5]
        by_cases hk : keep (o : Int) = true
        · rw [if_pos ⟨hu, hk⟩, if_pos hk, hx, h3]
          simp only [Res.ok_bind]
          rw [ih _ _ htail]
          congr 1
          abel
        · rw [if_neg (fun h => hk h.2), if_neg hk, ih _ buf htail, add_zero]

/-! ## Loops over cells -/

theorem sweepLoop_spec (body : Nat → List (Fin m → K) → Res (Fin m → K)) (val : Nat → (Nat → Fin m → K) → Fin m → K) (len : Nat) :
    ∀ (cells : List Nat) (u : List (Fin m → K)) (sum : Fin m → K), u.length = len → cells.Nodup → (∀ l ∈ cells, l < len) →
    (∀ l ∈ cells, ∀ w : List (Fin m → K), w.length = len → body l w = .ok (val l fun o => w.getD o 0)) →
    ∃ u', sweepLoop body cells u sum = .ok (u', sum + (cells.map fun l => fun k => |u'.getD l 0 k - u.getD l 0 k|).sum) ∧ u'.length = len ∧
      (∀ o, o ∉ cells → u'.getD o 0 = u.getD o 0) ∧
      ∀ (pre : List Nat) (l : Nat) (post : List Nat), cells = pre ++ l :: post →
        u'.getD l 0 = val l fun o => if o ∈ pre then u'.getD o 0 else u.getD o 0 := by
  intro cells
  induction cells with
  | nil =>
      intro u sum hu _ _ _
      refine ⟨u, by simp [sweepLoop], hu, fun _ _ => rfl, ?_⟩
      intro pre l post h
      simp at h
  | cons c cs ih =>
      intro u sum hu hnd hlt hb
      have hc := hlt c (List.mem_cons_self ..)
      obtain ⟨hcn, hnd'⟩ := List.nodup_cons.1 hnd
      have hold : idx u c = .ok (u.getD c 0) := by
        rw [(idx_ok_iff _ _ _).2 (List.getElem?_eq_getElem (by omega : c < u.length)), List.getD_eq_getElem _ _ (by omega)]
      have hnew := hb c (List.mem_cons_self ..) u hu
      have hset : ∀ o, (u.set c (val c fun o => u.getD o 0)).getD o 0 = if o = c then val c (fun o => u.getD o 0) else u.getD o 0 := by
        intro o
        by_cases ho : o = c
        · subst ho
          rw [if_pos rfl, List.getD_eq_getElem?_getD, List.getElem?_set_self (by omega)]; rfl
        · rw [if_neg ho, List.getD_eq_getElem?_getD, List.getElem?_set_ne (fun h => ho h.symm), ← List.getD_eq_getElem?_getD]
      obtain ⟨u', h1, h2, h3, h4⟩ := ih (u.set c (val c fun o => u.getD o 0)) (sum + fun k => |val c (fun o => u.getD o 0) k - u.getD c 0 k|)
        (by simpa using hu) hnd' (fun l hl => hlt l (List.mem_cons_of_mem _ hl)) (fun l hl => hb l (List.mem_cons_of_mem _ hl))
      have hc' : u'.getD c 0 = val c fun o => u.getD o 0 := by rw [h3 c hcn, hset, if_pos rfl]
      have hu1 : ∀ l ∈ cs, (u.set c (val c fun o => u.getD o 0)).getD l 0 = u.getD l 0 := by
        intro l hl
        rw [hset, if_neg (by rintro rfl; exact hcn hl)]
      refine ⟨u', ?_, h2, ?_, ?_⟩
      · simp only [sweepLoop, hold, hnew, Res.ok_bind]
        rw [h1]
        congr 2
        rw [List.map_cons, List.sum_cons, hc', add_assoc]
        congr 2
        exact congrArg List.sum (List.map_congr_left fun l hl => by rw [hu1 l hl])
      · intro o ho
        rw [List.mem_cons, not_or] at ho
        rw [h3 o ho.2, hset, if_neg ho.1]
      · intro pre l post hsplit
        cases pre with
        | nil =>
            rw [List.nil_append, List.cons.injEq] at hsplit
            obtain ⟨rfl, rfl⟩ := hsplit
            rw [hc']
            simp
        | cons p pre =>
            rw [List.cons_append, List.cons.injEq] at hsplit
            obtain ⟨rfl, rfl⟩ := hsplit
            rw [h4 pre l post rfl]
            congr 1
            funext o
            by_cases ho : o = c
            · subst ho
              have hp : o ∉ pre := fun h => hcn (List.mem_append_left _ h)
              rw [if_neg hp, if_pos (List.mem_cons_self ..), hset, if_pos rfl, hc']
            · by_cases hp : o ∈ pre
              · rw [if_pos hp, if_pos (List.mem_cons_of_mem _ hp)]
              · rw [if_neg hp, if_neg (by rw [List.mem_cons, not_or]; exact ⟨ho, hp⟩), hset, if_neg ho]

theorem sum_range_list {β : Type} [AddCommMonoid β] (f : Nat → β) (n : Nat) : ((List.range n).map f).sum = ∑ l ∈ Finset.range n, f l := by
  induction n with
  | zero => simp
  | succ n ih => rw [List.range_succ, List.map_append, List.sum_append, ih, Finset.sum_range_succ]; simp

theorem sum_order {β : Type} [AddCommMonoid β] (f : Nat → β) (fwd : Bool) (n : Nat) : ((order fwd n).map f).sum = ∑ l ∈ Finset.range n, f l := by
  rw [← sum_range_list f n]
  cases fwd
  · exact ((List.reverse_perm (List.range n)).map f).sum_eq
  · rfl

theorem order_nodup (fwd : Bool) (n : Nat) : (order fwd n).Nodup := by
  cases fwd
  · exact List.nodup_reverse.2 List.nodup_range
  · exact List.nodup_range

theorem mem_order (fwd : Bool) (n l : Nat) : l ∈ order fwd n ↔ l < n := by
  cases fwd <;> simp [order]

/-- what comes before a cell -/
theorem split_order (fwd : Bool) (n l : Nat) (hl : l < n) : ∃ pre post, order fwd n = pre ++ l :: post ∧
    ∀ o, o ∈ pre ↔ o < n ∧ if fwd then o < l else l < o := by
  have hr : List.range n = List.range l ++ l :: (List.range' (l + 1) (n - l - 1)) := by
    apply List.ext_getElem
    · simp; omega
    · intro i h1 h2
      simp only [List.getElem_range]
      rw [List.getElem_append]
      split
      · simp
      · rename_i hi
        simp only [List.length_range, not_lt] at hi
        rw [List.getElem_cons]
        split
        · rename_i h0; simp only [List.length_range] at h0; omega
        · rename_i h0; simp only [List.length_range] at h0; simp only [List.length_range, List.getElem_range']; omega
  cases fwd
  · refine ⟨(List.range' (l + 1) (n - l - 1)).reverse, (List.range l).reverse, ?_, ?_⟩
    · simp only [order, Bool.false_eq_true, if_false]
      rw [hr]
      simp
    · intro o
      simp only [List.mem_reverse, List.mem_range'_1, Bool.false_eq_true, if_false]
      omega
  · refine ⟨List.range l, List.range' (l + 1) (n - l - 1), ?_, ?_⟩
    · simpa [order] using hr
    · intro o
      simp only [List.mem_range, if_true]
      omega

end DNDSR.Sweep
