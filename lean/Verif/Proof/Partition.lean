import Verif.Spec.Partition
import Verif.Proof.TransPush
import Verif.Props.Defines

namespace DNDSR.Part

open DNDSR.Arr hiding Array
open DNDSR.IMap DNDSR.Tran

/-- the vector `f 0, ..., f (n-1)` -/
def V (n : Nat) (f : Nat → Nat) : List Nat := (List.range n).map f

theorem V_length (n : Nat) (f : Nat → Nat) : (V n f).length = n := by simp [V]

theorem V_get (n : Nat) (f : Nat → Nat) (t : Nat) (h : t < n) : (V n f)[t]? = some (f t) := by
  simp [V, h]

theorem V_congr {n : Nat} {f g : Nat → Nat} (h : ∀ t, t < n → f t = g t) : V n f = V n g := by
  unfold V
  apply List.map_congr_left
  intro t ht
  exact h t (List.mem_range.1 ht)

theorem replicate_V (n : Nat) : List.replicate n 0 = V n (fun _ => 0) := by
  unfold V
  rw [List.map_const', List.length_range]

theorem vecAt_V (n : Nat) (f : Nat → Nat) (x : Int) (h0 : 0 ≤ x) (h1 : x < n) : vecAt (V n f) x = .ok (f x.toNat) := by
  rw [vecAt, if_pos h0, idx_ok_iff, V_get _ _ _ (by omega)]

theorem bump_V (n : Nat) (f : Nat → Nat) (x : Int) (h0 : 0 ≤ x) (h1 : x < n) :
    bump (V n f) x = .ok (V n (fun t => f t + if (t : Int) = x then 1 else 0)) := by
  rw [bump, if_pos ⟨h0, by rw [V_length]; omega⟩]
  congr 1
  apply List.ext_getElem?
  intro t
  rw [List.getElem?_modify]
  by_cases ht : t < n
  · rw [V_get _ _ _ ht, V_get _ _ _ ht]
    by_cases hx : x.toNat = t
    · have : (t : Int) = x := by omega
      simp [hx, this]
    · have : ¬ (t : Int) = x := by omega
      simp [hx, this]
  · rw [List.getElem?_eq_none (by rw [V_length]; omega), List.getElem?_eq_none (by rw [V_length]; omega)]
    simp

theorem count_cons_add (x : Int) (p : List Int) (t : Int) :
    (x :: p).count t = (if t = x then 1 else 0) + p.count t := by
  rw [List.count_cons]
  by_cases h : t = x
  · simp [h]; omega
  · have : (x == t) = false := by simp; exact fun h' => h h'.symm
    simp [h, this]

theorem countPlain_V (n : Nat) : ∀ (p : List Int) (f : Nat → Nat), (∀ x ∈ p, 0 ≤ x ∧ x < n) →
    countPlain (V n f) p = .ok (V n (fun t => f t + p.count (t : Int))) := by
  intro p
  induction p with
  | nil => intro f _; simp [countPlain]
  | cons x xs ih =>
    intro f h
    obtain ⟨h0, h1⟩ := h x (by simp)
    rw [countPlain, bump_V n f x h0 h1, Res.ok_bind, ih _ (fun y hy => h y (by simp [hy]))]
    congr 1
    apply V_congr
    intro t _
    rw [count_cons_add]; omega

theorem countChecked_V (n : Nat) : ∀ (p : List Int) (f : Nat → Nat), (∀ x ∈ p, 0 ≤ x ∧ x < n) →
    countChecked n (V n f) p = .ok (V n (fun t => f t + p.count (t : Int))) := by
  intro p
  induction p with
  | nil => intro f _; simp [countChecked]
  | cons x xs ih =>
    intro f h
    obtain ⟨h0, h1⟩ := h x (by simp)
    rw [countChecked, Res.assert_true _ h1, Res.ok_bind, bump_V n f x h0 h1, Res.ok_bind,
      ih _ (fun y hy => h y (by simp [hy]))]
    congr 1
    apply V_congr
    intro t _
    rw [count_cons_add]; omega

theorem numberLoop_V (n : Nat) (plc : List Nat) (A B : Nat → Nat) (hA : ∀ t, t < n → plc[t]? = some (A t)) :
    ∀ (p : List Int) (f : Nat → Nat), (∀ x ∈ p, 0 ≤ x ∧ x < n) →
    ∃ out, numberLoop plc (V n B) (V n f) p = .ok out ∧ out.length = p.length ∧
      ∀ (i : Nat) (x : Int), p[i]? = some x →
        out[i]? = some (((f x.toNat + (p.take i).count x + A x.toNat + B x.toNat : Nat) : Int)) := by
  intro p
  induction p with
  | nil => intro f _; exact ⟨[], rfl, rfl, by simp⟩
  | cons x xs ih =>
    intro f h
    obtain ⟨h0, h1⟩ := h x (by simp)
    obtain ⟨out, e1, e2, e3⟩ := ih (fun t => f t + if (t : Int) = x then 1 else 0) (fun y hy => h y (by simp [hy]))
    have hp : vecAt plc x = .ok (A x.toNat) := by
      rw [vecAt, if_pos h0, idx_ok_iff]; exact hA _ (by omega)
    refine ⟨((f x.toNat + A x.toNat + B x.toNat : Nat) : Int) :: out, ?_, by simp [e2], ?_⟩
    · rw [numberLoop, vecAt_V n f x h0 h1, Res.ok_bind, bump_V n f x h0 h1, Res.ok_bind, hp, Res.ok_bind,
        vecAt_V n B x h0 h1, Res.ok_bind, e1, Res.ok_bind]
    · intro i y hy
      cases i with
      | zero =>
        simp only [List.getElem?_cons_zero, Option.some.injEq] at hy
        subst hy
        simp
      | succ i =>
        simp only [List.getElem?_cons_succ] at hy
        have h2 := h y (by simp [List.mem_of_getElem? hy])
        rw [List.getElem?_cons_succ, e3 i y hy, List.take_succ_cons, count_cons_add]
        have : ((y.toNat : Nat) : Int) = y := by omega
        rw [this]
        congr 2; omega

theorem addVec_V (n : Nat) (f g : Nat → Nat) : addVec (V n f) (V n g) = V n (fun t => f t + g t) := by
  apply List.ext_getElem?
  intro t
  rw [addVec, List.getElem?_zipWith]
  by_cases ht : t < n
  · simp [V_get _ _ _ ht]
  · rw [List.getElem?_eq_none (by rw [V_length]; omega), List.getElem?_eq_none (by rw [V_length]; omega),
      List.getElem?_eq_none (by rw [V_length]; omega)]

theorem subVec_V (n : Nat) (f g : Nat → Nat) : List.zipWith (· - ·) (V n f) (V n g) = V n (fun t => f t - g t) := by
  apply List.ext_getElem?
  intro t
  rw [List.getElem?_zipWith]
  by_cases ht : t < n
  · simp [V_get _ _ _ ht]
  · rw [List.getElem?_eq_none (by rw [V_length]; omega), List.getElem?_eq_none (by rw [V_length]; omega),
      List.getElem?_eq_none (by rw [V_length]; omega)]

theorem foldl_addVec (n : Nat) : ∀ (l : List (Nat → Nat)) (f : Nat → Nat),
    (l.map (V n)).foldl addVec (V n f) = V n (fun t => f t + (l.map (fun g => g t)).sum) := by
  intro l
  induction l with
  | nil => intro f; simp
  | cons g gs ih =>
    intro f
    rw [List.map_cons, List.foldl_cons, addVec_V, ih]
    apply V_congr
    intro t _
    simp only [List.map_cons, List.sum_cons]; omega

theorem placement_get : ∀ (l : List Nat) (c t : Nat), t ≤ l.length → (placement c l)[t]? = some (c + before l t) := by
  intro l
  induction l with
  | nil => intro c t ht; simp at ht; subst ht; simp [placement, before]
  | cons x xs ih =>
    intro c t ht
    cases t with
    | zero => simp [placement, before]
    | succ t =>
      simp only [placement, List.getElem?_cons_succ]
      rw [ih _ _ (by simpa using ht)]
      simp [before]; omega

/-- the counts of target `t` on the ranks -/
def cnts (parts : List (List Int)) (t : Int) : List Nat := parts.map (fun p => p.count t)

theorem newLens_V (n : Nat) (parts : List (List Int)) : newLens n parts = V n (fun t => (cnts parts t).sum) := rfl

/-- the new number of an entity -/
def numOf (n : Nat) (parts : List (List Int)) (r i : Nat) (x : Int) (p : List Int) : Nat :=
  before (newLens n parts) x.toNat + (before (cnts parts x) r + (p.take i).count x)

theorem partition2Serial2Global_eq (n : Nat) (parts : List (List Int)) (h : ValidParts n parts) :
    ∃ s2g, partition2Serial2Global n parts = .ok s2g ∧ SameShape2 s2g parts ∧
      ∀ (r : Nat) (p : List Int) (i : Nat) (x : Int), parts[r]? = some p → p[i]? = some x →
        At s2g r i ((numOf n parts r i x p : Nat) : Int) := by
  let cs : List (Nat → Nat) := parts.map (fun p => fun t => p.count (t : Int))
  have hloc : forRanks (fun _ p => countPlain (List.replicate n 0) p) 0 parts = .ok (cs.map (V n)) := by
    rw [List.map_map]
    apply forRanks_map
    intro i p hp
    rw [replicate_V, countPlain_V n p _ (h p hp)]
    congr 1
    apply V_congr
    intro t _; simp
  have htot : (cs.map (V n)).foldl addVec (List.replicate n 0) = newLens n parts := by
    rw [replicate_V, foldl_addVec, newLens_V]
    apply V_congr
    intro t _
    rw [Nat.zero_add, List.map_map]; rfl
  have hscan : ∀ r p, parts[r]? = some p → List.zipWith (· - ·)
      (((cs.map (V n)).take (r + 1)).foldl addVec (List.replicate n 0)) (V n (fun t => p.count (t : Int))) =
      V n (fun t => before (cnts parts t) r) := by
    intro r p hp
    have hr := (List.getElem?_eq_some_iff.1 hp).1
    have hpe := (List.getElem?_eq_some_iff.1 hp).2
    rw [← List.map_take, replicate_V, foldl_addVec, subVec_V]
    apply V_congr
    intro t _
    have h1 : ((cs.take (r + 1)).map (fun g => g t)).sum = before (cnts parts t) (r + 1) := by
      rw [before, cnts, ← List.map_take, ← List.map_take, List.map_map]; rfl
    have h2 := before_succ (cnts parts t) r (by simp [cnts]; exact hr)
    have h3 : (cnts parts t)[r]'(by simp [cnts]; exact hr) = p.count (t : Int) := by simp [cnts, hpe]
    omega
  have hone : ∀ (r : Nat) (p : List Int), parts[r]? = some p → ∃ out,
      numberLoop (placement 0 (newLens n parts)) (List.zipWith (· - ·)
        (((cs.map (V n)).take (r + 1)).foldl addVec (List.replicate n 0)) (V n (fun t => p.count (t : Int))))
        (List.replicate n 0) p = .ok out ∧ out.length = p.length ∧
      ∀ (i : Nat) (x : Int), p[i]? = some x → out[i]? = some ((numOf n parts r i x p : Nat) : Int) := by
    intro r p hp
    rw [hscan r p hp, replicate_V]
    obtain ⟨out, h1, h2, h3⟩ := numberLoop_V n (placement 0 (newLens n parts)) (fun t => before (newLens n parts) t)
      (fun t => before (cnts parts t) r)
      (fun t ht => by rw [placement_get _ _ _ (by rw [newLens_V, V_length]; omega)]; simp) p (fun _ => 0)
      (h p (List.mem_of_getElem? hp))
    refine ⟨out, h1, h2, ?_⟩
    intro i x hx
    rw [h3 i x hx]
    have hx' := h p (List.mem_of_getElem? hp) x (List.mem_of_getElem? hx)
    have : ((x.toNat : Nat) : Int) = x := by omega
    congr 2
    simp only [numOf, this]; omega
  have hrun : ∃ s2g, partition2Serial2Global n parts = .ok s2g := by
    simp only [partition2Serial2Global, hloc, Res.ok_bind, htot]
    apply forRanks_total
    intro r x hx
    rw [List.getElem?_zip_eq_some] at hx
    obtain ⟨hx1, hx2⟩ := hx
    have hp : x.2 = V n (fun t => x.1.count (t : Int)) := by
      rw [List.getElem?_map, List.getElem?_map, hx1] at hx2
      simpa using hx2.symm
    obtain ⟨out, h1, _⟩ := hone r x.1 hx1
    rw [Nat.zero_add, hp]
    exact ⟨out, h1⟩
  obtain ⟨s2g, hs⟩ := hrun
  have hs' := hs
  simp only [partition2Serial2Global, hloc, Res.ok_bind, htot] at hs'
  obtain ⟨l1, l2⟩ := (forRanks_ok _ _ _ _).1 hs'
  have hrow : ∀ (r : Nat) (p : List Int), parts[r]? = some p → ∃ out, s2g[r]? = some out ∧ out.length = p.length ∧
      ∀ (i : Nat) (x : Int), p[i]? = some x → out[i]? = some ((numOf n parts r i x p : Nat) : Int) := by
    intro r p hp
    obtain ⟨y, hy1, hy2⟩ := l2 r (p, V n (fun t => p.count (t : Int))) (by
      rw [List.getElem?_zip_eq_some]
      refine ⟨hp, ?_⟩
      rw [List.getElem?_map, List.getElem?_map, hp]; rfl)
    obtain ⟨out, h1, h2, h3⟩ := hone r p hp
    simp only [Nat.zero_add] at hy2
    rw [h1] at hy2
    cases hy2
    exact ⟨_, hy1, h2, h3⟩
  refine ⟨s2g, hs, ?_, ?_⟩
  · have hlen : s2g.length = parts.length := by rw [l1, List.length_zip, List.length_map, List.length_map, Nat.min_self]
    unfold SameShape2
    apply List.ext_getElem?
    intro r
    rw [List.getElem?_map, List.getElem?_map]
    by_cases hr : r < parts.length
    · obtain ⟨out, h1, h2, _⟩ := hrow r parts[r] (by simp [hr])
      rw [h1, List.getElem?_eq_getElem hr]; simp [h2]
    · rw [List.getElem?_eq_none (by omega), List.getElem?_eq_none (by omega)]
  · intro r p i x hp hx
    obtain ⟨out, h1, _, h3⟩ := hrow r p hp
    exact ⟨out, h1, h3 i x hx⟩

/-! ### counting -/

theorem count_take_lt (p : List Int) (i : Nat) (x : Int) (h : p[i]? = some x) : (p.take i).count x < p.count x := by
  conv => rhs; rw [← List.take_append_drop i p]
  rw [List.count_append]
  have : 0 < (p.drop i).count x := by
    rw [List.count_pos_iff]
    have : (p.drop i)[0]? = some x := by rw [List.getElem?_drop]; simpa using h
    exact List.mem_of_getElem? this
  omega

theorem count_take_mono (p : List Int) (x : Int) {i j : Nat} (h : i ≤ j) : (p.take i).count x ≤ (p.take j).count x := by
  obtain ⟨k, rfl⟩ := Nat.exists_eq_add_of_le h
  rw [List.take_add, List.count_append]; omega

theorem count_take_strict (p : List Int) (x : Int) {i j : Nat} (h : i < j) (hi : p[i]? = some x) :
    (p.take i).count x < (p.take j).count x := by
  have := count_take_lt (p.take j) i x (by rw [List.getElem?_take, if_pos h]; exact hi)
  rwa [List.take_take, Nat.min_eq_left (by omega)] at this

theorem count_find (x : Int) : ∀ (p : List Int) (c : Nat), c < p.count x → ∃ i, p[i]? = some x ∧ (p.take i).count x = c := by
  intro p
  induction p with
  | nil => intro c h; simp at h
  | cons y ys ih =>
    intro c h
    rw [count_cons_add] at h
    by_cases hxy : x = y
    · subst hxy
      cases c with
      | zero => exact ⟨0, by simp, by simp⟩
      | succ c =>
        obtain ⟨i, h1, h2⟩ := ih c (by simp at h; omega)
        exact ⟨i + 1, by simpa using h1, by rw [List.take_succ_cons, count_cons_add, if_pos rfl]; omega⟩
    · obtain ⟨i, h1, h2⟩ := ih c (by rw [if_neg hxy] at h; omega)
      exact ⟨i + 1, by simpa using h1, by rw [List.take_succ_cons, count_cons_add, if_neg hxy]; omega⟩

theorem sum_count (n : Nat) : ∀ (p : List Int), (∀ x ∈ p, 0 ≤ x ∧ x < n) →
    (V n (fun t => p.count (t : Int))).sum = p.length := by
  intro p
  induction p with
  | nil =>
    intro _
    have : V n (fun t => ([] : List Int).count (t : Int)) = List.replicate n 0 := by rw [replicate_V]; simp
    rw [this]; simp
  | cons x xs ih =>
    intro h
    obtain ⟨h0, h1⟩ := h x (by simp)
    have hb := bump_V n (fun t => xs.count (t : Int)) x h0 h1
    rw [bump, if_pos ⟨h0, by rw [V_length]; omega⟩] at hb
    have e : V n (fun t => (x :: xs).count (t : Int)) = (V n (fun t => xs.count (t : Int))).modify x.toNat (· + 1) := by
      rw [Res.ok.inj hb]
      apply V_congr
      intro t _
      rw [count_cons_add]; omega
    have hm : ∀ (l : List Nat) (k : Nat), k < l.length → (l.modify k (· + 1)).sum = l.sum + 1 := by
      intro l
      induction l with
      | nil => intro k hk; simp at hk
      | cons a as ih =>
        intro k hk
        cases k with
        | zero => simp; omega
        | succ k =>
          have := ih k (by simpa using hk)
          simp only [List.modify_succ_cons, List.sum_cons, this]; omega
    rw [e, hm _ _ (by rw [V_length]; omega), ih (fun y hy => h y (by simp [hy]))]
    simp

/-! ### the local lists -/

theorem fillLoop_eq (n : Nat) (p0 : List Int) (h : ∀ x ∈ p0, 0 ≤ x ∧ x < n) (starts : List Int)
    (hs : ∀ t, t < n → starts[t]? = some ((before (V n (fun t => p0.count (t : Int))) t : Nat) : Int)) :
    ∀ (p : List Int) (done : List Int) (push : List Int), p0 = done ++ p → push.length = p0.length →
      (∀ (j : Nat) (x : Int), done[j]? = some x →
        push[before (V n (fun t => p0.count (t : Int))) x.toNat + (p0.take j).count x]? = some (j : Int)) →
      ∃ out, fillLoop starts (V n (fun t => done.count (t : Int))) push done.length p = .ok out ∧
        out.length = p0.length ∧
        ∀ (j : Nat) (x : Int), p0[j]? = some x →
          out[before (V n (fun t => p0.count (t : Int))) x.toNat + (p0.take j).count x]? = some (j : Int) := by
  intro p
  induction p with
  | nil =>
    intro done push hp hl hd
    refine ⟨push, rfl, hl, ?_⟩
    have : p0 = done := by simpa using hp
    rw [this] at hd ⊢
    exact hd
  | cons x xs ih =>
    intro done push hp hl hd
    obtain ⟨h0, h1⟩ := h x (by rw [hp]; simp)
    have hxi : ((x.toNat : Nat) : Int) = x := by omega
    have hget : p0[done.length]? = some x := by rw [hp]; simp
    have htake : p0.take done.length = done := by rw [hp]; simp
    have hst : vecAt starts x = .ok ((before (V n (fun t => p0.count (t : Int))) x.toNat : Nat) : Int) := by
      rw [vecAt, if_pos h0, idx_ok_iff]; exact hs _ (by omega)
    -- the slots of two entities are different, and inside
    have hslot : ∀ (j : Nat) (y : Int), p0[j]? = some y →
        Owns (V n (fun t => p0.count (t : Int))) y.toNat
          ((before (V n (fun t => p0.count (t : Int))) y.toNat + (p0.take j).count y : Nat) : Int) := by
      intro j y hy
      have hy' := h y (List.mem_of_getElem? hy)
      have hyl : y.toNat < (V n (fun t => p0.count (t : Int))).length := by rw [V_length]; omega
      have hc := count_take_lt p0 j y hy
      have hv : (V n (fun t => p0.count (t : Int)))[y.toNat]? = some (p0.count y) := by
        rw [V_get _ _ _ (by omega), show ((y.toNat : Nat) : Int) = y by omega]
      have hv' := (List.getElem?_eq_some_iff.1 hv).2
      exact ⟨hyl, by omega, by omega⟩
    have hin := owns_range (hslot _ _ hget)
    rw [sum_count n p0 h] at hin
    rw [htake] at hin
    have hcnt : vecAt (V n (fun t => done.count (t : Int))) x = .ok (done.count x) := by
      rw [vecAt_V n _ x h0 h1, hxi]
    simp only [fillLoop, hst, Res.ok_bind, hcnt, bump_V n _ x h0 h1]
    generalize hS : before (V n (fun t => p0.count (t : Int))) x.toNat = S at *
    have hsum : ((S : Int) + (done.count x : Nat)).toNat = S + done.count x := by omega
    rw [if_pos (by omega), hsum]
    have hcongr : V n (fun t => done.count (t : Int) + if (t : Int) = x then 1 else 0) =
        V n (fun t => (done ++ [x]).count (t : Int)) := by
      apply V_congr
      intro t _
      rw [List.count_append, count_cons_add]; simp
    rw [hcongr]
    obtain ⟨out, e1, e2, e3⟩ := ih (done ++ [x]) (push.set (S + done.count x) (done.length : Int)) (by rw [hp]; simp)
      (by simpa using hl) (by
        intro j y hy
        by_cases hj : j < done.length
        · have hdy : done[j]? = some y := by rwa [List.getElem?_append_left hj] at hy
          have hp0y : p0[j]? = some y := by rw [hp, List.getElem?_append_left hj]; exact hdy
          rw [List.getElem?_set_ne, hd j y hdy]
          intro heq
          have o1 := hslot j y hp0y
          have o2 := hslot _ _ hget
          rw [hS, htake, heq] at o2
          have := owns_unique o1 o2
          have hyx : y = x := by
            have := h y (List.mem_of_getElem? hp0y)
            omega
          subst hyx
          have := count_take_strict p0 y hj hp0y
          rw [htake] at this
          omega
        · have hj' : j = done.length := by
            have := (List.getElem?_eq_some_iff.1 hy).1
            simp at this; omega
          subst hj'
          rw [List.getElem?_append_right (by omega)] at hy
          simp at hy
          subst hy
          rw [hS, htake, List.getElem?_set_self (by omega)])
    refine ⟨out, ?_, e2, e3⟩
    rw [← e1]; simp

theorem le_sum_of_mem {k : Nat} : ∀ {C : List Nat}, k ∈ C → k ≤ C.sum := by
  intro C
  induction C with
  | nil => intro hk; simp at hk
  | cons a as ih =>
    intro hk
    rcases List.mem_cons.1 hk with rfl | hk
    · simp
    · have := ih hk
      simp only [List.sum_cons]; omega

theorem partition2LocalIdx_eq (n : Nat) (p : List Int) (h : ∀ x ∈ p, 0 ≤ x ∧ x < n)
    (hb : (p.length : Int) ≤ Defines.intMax 64) :
    ∃ push starts, partition2LocalIdx n p = .ok (push, starts) ∧
      starts = plainStarts (V n (fun t => p.count (t : Int))) ∧ push.length = p.length ∧
      ∀ (j : Nat) (x : Int), p[j]? = some x →
        push[before (V n (fun t => p.count (t : Int))) x.toNat + (p.take j).count x]? = some (j : Int) := by
  generalize hC : V n (fun t => p.count (t : Int)) = C
  have hCl : C.length = n := by rw [← hC, V_length]
  have hsum : C.sum = p.length := by rw [← hC]; exact sum_count n p h
  have hmap : ∀ i, ((C.map Int.ofNat).take i).sum = ((C.take i).sum : Nat) := by
    intro i
    rw [← List.map_take]
    generalize C.take i = D
    induction D with
    | nil => rfl
    | cons a as ih => simp only [List.map_cons, List.sum_cons, ih, Int.natCast_add]; rfl
  have hmin : Defines.intMin 64 ≤ 0 := by decide
  have hfit : ∀ i, Defines.Fits 64 ((C.map Int.ofNat).take i).sum := by
    intro i
    have := before_le_total C i
    unfold before at this
    rw [hmap]
    exact ⟨by omega, by omega⟩
  obtain ⟨s1, s2⟩ := Defines.accumulateRowSize_spec 64 (C.map Int.ofNat) (by
    intro x hx
    obtain ⟨k, hk, rfl⟩ := List.mem_map.1 hx
    have hle : k ≤ C.sum := le_sum_of_mem hk
    refine ⟨?_, ?_⟩
    · have : (0 : Int) ≤ Int.ofNat k := Int.natCast_nonneg k
      omega
    · have : Int.ofNat k = (k : Int) := rfl
      omega)
  obtain ⟨st, hst⟩ := s2 (fun i _ => hfit i)
  obtain ⟨t1, t2⟩ := s1 st hst
  have hget : ∀ t, t ≤ n → st[t]? = some ((before C t : Nat) : Int) := by
    intro t ht
    rw [t2 t (by simp; omega), hmap]; rfl
  have hbn : before C n = p.length := by rw [before, ← hCl, List.take_length, hsum]
  have hlast : idx st n = .ok (p.length : Int) := by rw [idx_ok_iff, hget n (by omega), hbn]
  obtain ⟨out, e1, e2, e3⟩ := fillLoop_eq n p h st (fun t ht => by rw [hC]; exact hget t (by omega)) p []
    (List.replicate p.length 0) rfl (by simp) (by simp)
  refine ⟨out, st.map Int.toNat, ?_, ?_, e2, by rw [← hC]; exact e3⟩
  · have hcc : countChecked n (List.replicate n 0) p = .ok C := by
      rw [replicate_V, countChecked_V n p _ h, ← hC]
      congr 1
      apply V_congr; intro t _; omega
    rw [partition2LocalIdx, hcc, Res.ok_bind, hst, Res.ok_bind, hlast, Res.ok_bind,
      Res.assert_true _ (by omega), Res.ok_bind]
    have : V n (fun t => ([] : List Int).count (t : Int)) = List.replicate n 0 := by rw [replicate_V]; simp
    rw [this] at e1
    have e1' : fillLoop st (List.replicate n 0) (List.replicate (p.length : Int).toNat 0) 0 p = .ok out := e1
    rw [e1', Res.ok_bind]
  · apply List.ext_getElem?
    intro t
    rw [List.getElem?_map]
    by_cases ht : t ≤ n
    · rw [hget t ht, plainStarts_get _ _ (by omega)]; simp [before]
    · rw [List.getElem?_eq_none (by rw [t1]; simp; omega), List.getElem?_eq_none (by rw [plainStarts_length]; omega)]
      rfl

end DNDSR.Part
