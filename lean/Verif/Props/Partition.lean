import Verif.Proof.Partition

/-!
# C23: redistribution after partitioning
-/

namespace DNDSR.Part

open DNDSR.Arr hiding Array
open DNDSR.IMap DNDSR.Tran

theorem owns_lt {lens : List Nat} {r s : Nat} {q q' : Int} (h : Owns lens r q) (h' : Owns lens s q') (hrs : r < s) :
    q < q' := by
  obtain ⟨hr, a1, a2⟩ := h
  obtain ⟨hs, b1, b2⟩ := h'
  have h1 := before_succ lens r hr
  have h2 := before_mono lens (show r + 1 ≤ s by omega)
  omega

theorem cnts_get {parts : List (List Int)} {r : Nat} {p : List Int} (h : parts[r]? = some p) (x : Int) :
    (cnts parts x)[r]? = some (p.count x) := by simp [cnts, h]

theorem newLens_get (n : Nat) (parts : List (List Int)) (x : Int) (h0 : 0 ≤ x) (h1 : x < n) :
    (newLens n parts)[x.toNat]? = some (cnts parts x).sum := by
  rw [newLens_V, V_get _ _ _ (by omega), show ((x.toNat : Nat) : Int) = x by omega]

/-- position of an entity among those with the same target -/
theorem owns_cnts {parts : List (List Int)} {r i : Nat} {p : List Int} {x : Int} (hp : parts[r]? = some p)
    (hx : p[i]? = some x) : Owns (cnts parts x) r ((before (cnts parts x) r + (p.take i).count x : Nat) : Int) := by
  have h1 := count_take_lt p i x hx
  obtain ⟨hr, h2⟩ := List.getElem?_eq_some_iff.1 (cnts_get hp x)
  exact ⟨hr, by omega, by omega⟩

theorem owns_numOf {n : Nat} {parts : List (List Int)} (h : ValidParts n parts) {r i : Nat} {p : List Int} {x : Int}
    (hp : parts[r]? = some p) (hx : p[i]? = some x) : Owns (newLens n parts) x.toNat ((numOf n parts r i x p : Nat) : Int) := by
  obtain ⟨h0, h1⟩ := h p (List.mem_of_getElem? hp) x (List.mem_of_getElem? hx)
  obtain ⟨hl, h2⟩ := List.getElem?_eq_some_iff.1 (newLens_get n parts x h0 h1)
  have h3 := (owns_range (owns_cnts hp hx)).2
  refine ⟨hl, ?_, ?_⟩ <;> unfold numOf <;> omega

theorem numOf_lt {n : Nat} {parts : List (List Int)} (h : ValidParts n parts) {r i r' i' : Nat} {p p' : List Int}
    {x x' : Int} (hp : parts[r]? = some p) (hx : p[i]? = some x) (hp' : parts[r']? = some p') (hx' : p'[i']? = some x')
    (he : Earlier (x, r, i) (x', r', i')) : numOf n parts r i x p < numOf n parts r' i' x' p' := by
  have h0 := h p (List.mem_of_getElem? hp) x (List.mem_of_getElem? hx)
  have h0' := h p' (List.mem_of_getElem? hp') x' (List.mem_of_getElem? hx')
  rcases he with he | ⟨e, he | ⟨er, he⟩⟩
  · simp only at he
    have := owns_lt (owns_numOf h hp hx) (owns_numOf h hp' hx') (by omega)
    omega
  · simp only at e he
    subst e
    have := owns_lt (owns_cnts hp hx) (owns_cnts hp' hx') he
    unfold numOf; omega
  · simp only at e er he
    subst e
    subst er
    rw [hp] at hp'; cases hp'
    have := count_take_strict p x he hx
    unfold numOf; omega

/-- **C23**, numbering. The entities of a distributed set with a target rank for each get new global numbers such
that: the numbers of the entities going to rank `t` are exactly the block rank `t` will own, every number of the new
range is given, to one entity only, and entities are numbered by target rank, then source rank, then position. -/
theorem renumbering (n : Nat) (parts : List (List Int)) (h : ValidParts n parts) :
    ∃ s2g, partition2Serial2Global n parts = .ok s2g ∧ SameShape2 s2g parts ∧
      (newLens n parts).sum = (parts.map List.length).sum ∧
      (∀ (r i : Nat) (x g : Int), At parts r i x → At s2g r i g → Owns (newLens n parts) x.toNat g) ∧
      (∀ g : Int, 0 ≤ g → g < (newLens n parts).sum → ∃ r i, At s2g r i g) ∧
      (∀ (r i r' i' : Nat) (g : Int), At s2g r i g → At s2g r' i' g → r = r' ∧ i = i') ∧
      (∀ (r i r' i' : Nat) (x x' g g' : Int), At parts r i x → At s2g r i g → At parts r' i' x' → At s2g r' i' g' →
        (g < g' ↔ Earlier (x, r, i) (x', r', i'))) := by
  obtain ⟨s2g, h1, h2, h3⟩ := partition2Serial2Global_eq n parts h
  have hv : ∀ {r i : Nat} {x g : Int}, At parts r i x → At s2g r i g → ∃ p, parts[r]? = some p ∧ p[i]? = some x ∧
      g = (numOf n parts r i x p : Nat) := by
    intro r i x g ⟨p, hp, hx⟩ ⟨row, hr, hg⟩
    obtain ⟨row', hr', hg'⟩ := h3 r p i x hp hx
    rw [hr] at hr'; cases hr'
    rw [hg] at hg'; cases hg'
    exact ⟨p, hp, hx, rfl⟩
  have hback : ∀ {r i : Nat} {g : Int}, At s2g r i g → ∃ x, At parts r i x := by
    intro r i g ⟨row, hr, hg⟩
    have := congrArg (fun l : List Nat => l[r]?) h2
    simp only [List.getElem?_map, hr, Option.map_some] at this
    obtain ⟨p, hp, hl⟩ := Option.map_eq_some_iff.1 this.symm
    have hi := (List.getElem?_eq_some_iff.1 hg).1
    exact ⟨p[i]'(by omega), p, hp, by simp⟩
  have hord : ∀ {r i r' i' : Nat} {x x' g g' : Int}, At parts r i x → At s2g r i g → At parts r' i' x' → At s2g r' i' g' →
      Earlier (x, r, i) (x', r', i') → g < g' := by
    intro r i r' i' x x' g g' a1 a2 a3 a4 he
    obtain ⟨p, hp, hx, rfl⟩ := hv a1 a2
    obtain ⟨p', hp', hx', rfl⟩ := hv a3 a4
    have := numOf_lt h hp hx hp' hx' he
    omega
  refine ⟨s2g, h1, h2, ?_, ?_, ?_, ?_, ?_⟩
  · -- totals
    have hgen : ∀ (ps : List (List Int)), ValidParts n ps →
        (newLens n ps).sum = (ps.map List.length).sum := by
      intro ps
      induction ps with
      | nil =>
        intro _
        have : newLens n [] = List.replicate n 0 := by rw [replicate_V, newLens_V]; rfl
        rw [this]; simp
      | cons p ps ih =>
        intro hps
        have i1 := ih (fun q hq => hps q (by simp [hq]))
        have i2 := sum_count n p (hps p (by simp))
        have hadd : ∀ (m : Nat) (f g : Nat → Nat), (V m (fun t => f t + g t)).sum = (V m f).sum + (V m g).sum := by
          intro m f g
          induction m with
          | zero => simp [V]
          | succ m ihm => simp only [V, List.range_succ, List.map_append, List.sum_append_nat] at ihm ⊢; simp [ihm]; omega
        have e : newLens n (p :: ps) = V n (fun t => p.count (t : Int) + (cnts ps t).sum) := by
          rw [newLens_V]
          apply V_congr
          intro t _
          simp [cnts]
        rw [e, hadd, i2, ← newLens_V, i1]; simp
    exact hgen parts h
  · intro r i x g a1 a2
    obtain ⟨p, hp, hx, rfl⟩ := hv a1 a2
    exact owns_numOf h hp hx
  · intro g g0 g1
    obtain ⟨t, o1, o2, o3⟩ := owns_exists g0 g1
    have ht : t < n := by rw [newLens_V, V_length] at o1; exact o1
    have hl := newLens_get n parts t (by omega) (by omega)
    rw [Int.toNat_natCast] at hl
    have hl' := (List.getElem?_eq_some_iff.1 hl).2
    obtain ⟨r, q1, q2, q3⟩ := owns_exists (lens := cnts parts t) (q := g - before (newLens n parts) t) (by omega) (by omega)
    have hr : r < parts.length := by simpa [cnts] using q1
    have hp : parts[r]? = some parts[r] := by simp [hr]
    have hc := cnts_get hp t
    have hc' := (List.getElem?_eq_some_iff.1 hc).2
    obtain ⟨i, c1, c2⟩ := count_find t parts[r] (g - before (newLens n parts) t - before (cnts parts t) r).toNat (by omega)
    refine ⟨r, i, ?_⟩
    have := h3 r parts[r] i t hp c1
    have e : ((numOf n parts r i t parts[r] : Nat) : Int) = g := by
      unfold numOf
      rw [Int.toNat_natCast]
      omega
    rw [e] at this
    exact this
  · intro r i r' i' g a1 a2
    obtain ⟨x, a3⟩ := hback a1
    obtain ⟨x', a4⟩ := hback a2
    apply Classical.byContradiction
    intro hne
    have : Earlier (x, r, i) (x', r', i') ∨ Earlier (x', r', i') (x, r, i) := by
      simp only [Earlier]; omega
    rcases this with he | he
    · have := hord a3 a1 a4 a2 he; omega
    · have := hord a4 a2 a3 a1 he; omega
  · intro r i r' i' x x' g g' a1 a2 a3 a4
    refine ⟨?_, hord a1 a2 a3 a4⟩
    intro hlt
    apply Classical.byContradiction
    intro hne
    have : Earlier (x', r', i') (x, r, i) ∨ (x = x' ∧ r = r' ∧ i = i') := by
      simp only [Earlier] at hne ⊢; omega
    rcases this with he | ⟨rfl, rfl, rfl⟩
    · have := hord a3 a4 a1 a2 he; omega
    · obtain ⟨p, hp, hx, rfl⟩ := hv a1 a2
      obtain ⟨p', hp', hx', rfl⟩ := hv a3 a4
      rw [hp] at hp'; cases hp'
      omega

-- three ranks, one of them empty, one target without entities
def demoParts : List (List Int) := [[2, 0, 2], [], [0, 0, 2, 0]]

example : ValidParts 3 demoParts ∧ partition2Serial2Global 3 demoParts = .ok [[4, 0, 5], [], [1, 2, 6, 3]] ∧
    newLens 3 demoParts = [4, 0, 3] := by
  refine ⟨by unfold ValidParts demoParts; decide, by rfl, by rfl⟩

/-- **C23**, grouping. The local lists: a start for every target rank, and every entity listed once, in its target's
group, in the order of the positions. -/
theorem grouping (n : Nat) (p : List Int) (h : ∀ x ∈ p, 0 ≤ x ∧ x < n) (hb : (p.length : Int) ≤ Defines.intMax 64) :
    ∃ push starts, partition2LocalIdx n p = .ok (push, starts) ∧ push.length = p.length ∧ starts.length = n + 1 ∧
      ∀ t, t < n → segment push starts t = ((p.zipIdx.filter (fun x => x.1 = (t : Int))).map (fun x => (x.2 : Int))) := by
  obtain ⟨push, starts, h1, h2, h3, h4⟩ := partition2LocalIdx_eq n p h hb
  refine ⟨push, starts, h1, h3, by rw [h2, plainStarts_length, V_length], ?_⟩
  intro t ht
  have hlen : ∀ (p : List Int) (k : Nat), ((p.zipIdx k).filter (fun x => x.1 = (t : Int))).length = p.count (t : Int) := by
    intro p
    induction p with
    | nil => intro k; simp
    | cons a as ih =>
      intro k
      rw [List.zipIdx_cons, List.filter_cons, count_cons_add]
      by_cases ha : a = (t : Int)
      · rw [if_pos (by simpa using ha), if_pos ha.symm, List.length_cons, ih]; omega
      · rw [if_neg (by simpa using ha), if_neg (fun h => ha h.symm), ih]; omega
  have hget : ∀ (p : List Int) (k i : Nat), p[i]? = some (t : Int) →
      ((p.zipIdx k).filter (fun x => x.1 = (t : Int)))[(p.take i).count (t : Int)]? = some ((t : Int), k + i) := by
    intro p
    induction p with
    | nil => intro k i h; simp at h
    | cons a as ih =>
      intro k i hi
      rw [List.zipIdx_cons, List.filter_cons]
      cases i with
      | zero =>
        simp only [List.getElem?_cons_zero, Option.some.injEq] at hi
        subst hi
        simp
      | succ i =>
        have := ih (k + 1) i (by simpa using hi)
        rw [List.take_succ_cons, count_cons_add]
        by_cases ha : a = (t : Int)
        · rw [if_pos (by simpa using ha), if_pos ha.symm, Nat.add_comm 1, List.getElem?_cons_succ, this]
          congr 2; omega
        · rw [if_neg (by simpa using ha), if_neg (fun h => ha h.symm), Nat.zero_add, this]
          congr 2; omega
  obtain ⟨b, e, s1, s2, s3, s4, s5⟩ := plainStarts_block (V n (fun t => p.count (t : Int))) t (by rw [V_length]; exact ht)
  have hv := (List.getElem?_eq_some_iff.1 (V_get n (fun t => p.count (t : Int)) t ht)).2
  rw [hv] at s3
  rw [sum_count n p h] at s4
  rw [← h2] at s1 s2
  apply List.ext_getElem?
  intro c
  by_cases hc : c < p.count (t : Int)
  · obtain ⟨i, c1, c2⟩ := count_find t p c hc
    rw [segment_getElem? push starts t b e c s1 s2 (by omega), List.getElem?_map]
    have g1 := hget p 0 i c1
    rw [c2] at g1
    rw [g1]
    have g2 := h4 i t c1
    rw [Int.toNat_natCast, c2, ← s5] at g2
    rw [g2]; simp
  · rw [List.getElem?_eq_none, List.getElem?_eq_none]
    · rw [List.length_map, hlen]; omega
    · simp only [segment, s1, s2, List.length_take, List.length_drop]; omega

example : partition2LocalIdx 3 [2, 0, 2, 1] = .ok ([1, 3, 0, 2], [0, 1, 2, 4]) := by rfl

/-- what the partition functions assume: unreferenced nodes keep `INT32_MAX` as target, on which the assertion fires -/
theorem grouping_aborts_out_of_range (n : Nat) (p q : List Int) (x : Int) (h : ∀ y ∈ p, 0 ≤ y ∧ y < n) (hx : (n : Int) ≤ x) :
    partition2LocalIdx n (p ++ x :: q) = .abort := by
  have : ∀ (p : List Int) (f : Nat → Nat), (∀ y ∈ p, 0 ≤ y ∧ y < n) → countChecked n (V n f) (p ++ x :: q) = .abort := by
    intro p
    induction p with
    | nil =>
      intro f _
      have : ¬ x < n := by omega
      simp only [List.nil_append, countChecked, Res.assert, if_neg this, Res.abort_bind]
    | cons a as ih =>
      intro f hf
      obtain ⟨h0, h1⟩ := hf a (by simp)
      rw [List.cons_append, countChecked, Res.assert_true _ h1, Res.ok_bind, bump_V n f a h0 h1, Res.ok_bind]
      exact ih _ (fun y hy => hf y (by simp [hy]))
  rw [partition2LocalIdx, replicate_V, this p _ h, Res.abort_bind]

/-- every rank's entities grouped by target -/
def groupAll (n : Nat) (parts : List (List Int)) : Res (List (List Int × List Nat)) :=
  forRanks (fun _ p => partition2LocalIdx n p) 0 parts

theorem groupAll_ok {n : Nat} {parts : List (List Int)} (h : ValidParts n parts)
    (hb : ∀ p ∈ parts, (p.length : Int) ≤ Defines.intMax 64) :
    ∃ pushes, groupAll n parts = .ok pushes ∧ pushes.length = parts.length ∧
      ∀ (r : Nat) (p : List Int), parts[r]? = some p → ∃ pu, pushes[r]? = some pu ∧
        pu.2 = plainStarts (V n (fun t => p.count (t : Int))) ∧ pu.1.length = p.length ∧
        (∀ l ∈ pu.1, 0 ≤ l ∧ l < p.length) ∧
        ∀ (j : Nat) (x : Int), p[j]? = some x →
          pu.1[before (V n (fun t => p.count (t : Int))) x.toNat + (p.take j).count x]? = some (j : Int) := by
  have hone := fun p (hp : p ∈ parts) => partition2LocalIdx_eq n p (h p hp) (hb p hp)
  obtain ⟨pushes, hg⟩ : ∃ pushes, groupAll n parts = .ok pushes := by
    apply forRanks_total
    intro i p hp
    obtain ⟨a, b, e, _⟩ := hone p (List.mem_of_getElem? hp)
    exact ⟨_, e⟩
  obtain ⟨l1, l2⟩ := (forRanks_ok _ _ _ _).1 hg
  refine ⟨pushes, hg, l1, ?_⟩
  intro r p hp
  obtain ⟨a, b, e1, e2, e3, e4⟩ := hone p (List.mem_of_getElem? hp)
  obtain ⟨pu, f1, f2⟩ := l2 r p hp
  rw [e1] at f2; cases f2
  refine ⟨_, f1, e2, e3, ?_, e4⟩
  -- every slot holds the index of the entity it belongs to
  intro l hl
  obtain ⟨k, hk, rfl⟩ := List.mem_iff_getElem.1 hl
  have hv := h p (List.mem_of_getElem? hp)
  obtain ⟨t, o1, o2, o3⟩ := owns_exists (lens := V n (fun t => p.count (t : Int))) (q := k) (by omega) (by
    rw [sum_count n p hv]; simp only at hk; omega)
  have ht : t < n := by rw [V_length] at o1; exact o1
  have hv' := (List.getElem?_eq_some_iff.1 (V_get n (fun t => p.count (t : Int)) t ht)).2
  rw [hv'] at o3
  obtain ⟨i, c1, c2⟩ := count_find t p (k - before (V n (fun t => p.count (t : Int))) t) (by omega)
  have := e4 i t c1
  rw [Int.toNat_natCast, c2, show before (V n (fun t => p.count (t : Int))) t +
    (k - before (V n (fun t => p.count (t : Int))) t) = k by omega] at this
  have hi := (List.getElem?_eq_some_iff.1 c1).1
  have he := (List.getElem?_eq_some_iff.1 this).2
  simp only at he ⊢
  rw [he]; omega

/-- **C23**, moving the data. The transfer of an array (of any layout) by the groups of `Partition2LocalIdx`: it
never reaches undefined behaviour; it returns if no rank receives too much storage; and then rank `t` holds exactly
the entities whose target is `t`, each one's row at the place its new global number says. -/
theorem transfer_delivers {α : Type} {z : α} {ty : Ty} (u : Bool) (parts : List (List Int))
    (h : ValidParts parts.length parts) (hb : ∀ p ∈ parts, (p.length : Int) ≤ Defines.intMax 64)
    (w : World α) (hw : Setup z ty (parts.map List.length) w) (order : List (Nat × Nat))
    (ho : AllPairs parts.length order) :
    ∃ pushes s2g, groupAll parts.length parts = .ok pushes ∧ partition2Serial2Global parts.length parts = .ok s2g ∧
      transferData z ty u pushes w order ≠ .ub ∧
      (∀ (L : Int → Nat) (K : Nat), IsSlotLen ty (parts.map List.length) w.fathers L → (∀ q, L q ≤ K) →
        (∀ k ∈ newLens parts.length parts, k * K < int32Max) → ∃ w', transferData z ty u pushes w order = .ok w') ∧
      ∀ w', transferData z ty u pushes w order = .ok w' → w'.sons.map (·.size) = newLens parts.length parts ∧
        ∀ (r i t : Nat) (g : Int) (fa so : Arr.Array α), At parts r i (t : Int) → At s2g r i g →
          w.fathers[r]? = some fa → w'.sons[t]? = some so →
          SameRow ty so (ownRow (newLens parts.length parts) t g) fa i := by
  obtain ⟨pushes, g1, g2, g3⟩ := groupAll_ok h hb
  obtain ⟨s2g, n1, n2, n3⟩ := partition2Serial2Global_eq parts.length parts h
  refine ⟨pushes, s2g, g1, n1, ?_⟩
  generalize hn : parts.length = n at *
  have hlens : w.fathers.map (·.size) = parts.map List.length := by
    apply List.ext_getElem?
    intro r
    rw [List.getElem?_map]
    by_cases hr : r < parts.length
    · have hl := hw.nfathers
      rw [List.length_map] at hl
      obtain ⟨_, e⟩ := hw.father r (w.fathers[r]'(by omega)) (by simp)
      rw [e, List.getElem?_eq_getElem (by omega)]; rfl
    · have hl := hw.nfathers
      rw [List.length_map] at hl
      rw [List.getElem?_eq_none (by omega), List.getElem?_eq_none (by rw [List.length_map]; omega)]; rfl
  generalize hlens' : parts.map List.length = lens at *
  have hll : lens.length = n := by rw [← hlens', List.length_map, hn]
  obtain ⟨go, hgo⟩ := built_exists lens
  have hpu : ∀ pu ∈ pushes, ∃ (r : Nat) (p : List Int), parts[r]? = some p ∧ pushes[r]? = some pu := by
    intro pu hpu
    obtain ⟨r, hr, rfl⟩ := List.mem_iff_getElem.1 hpu
    exact ⟨r, parts[r]'(by omega), by simp, by simp⟩
  have hst : ∀ pu ∈ pushes, ∃ sizes : List Nat, sizes.length = lens.length ∧ pu.2 = plainStarts sizes ∧
      pu.1.length = sizes.sum := by
    intro pu hpu'
    obtain ⟨r, p, hp, hr⟩ := hpu pu hpu'
    obtain ⟨pu', a1, a2, a3, _⟩ := g3 r p hp
    rw [hr] at a1; cases a1
    exact ⟨_, by rw [V_length, hll], a2, by rw [a3, sum_count n p (h p (List.mem_of_getElem? hp))]⟩
  have hz : ∀ pu ∈ pushes, pu.2[0]? = some 0 := by
    intro pu hpu'
    obtain ⟨sizes, _, e, _⟩ := hst pu hpu'
    rw [e, plainStarts_get _ _ (by omega)]; simp
  have hpv : PushValid lens pushes := by
    intro r pu hr l hl
    have hrl := (List.getElem?_eq_some_iff.1 hr).1
    obtain ⟨p, hp⟩ : ∃ p, parts[r]? = some p := ⟨parts[r]'(by omega), by simp⟩
    obtain ⟨pu', a1, _, _, a4, _⟩ := g3 r p hp
    rw [hr] at a1; cases a1
    refine ⟨(a4 l hl).1, p.length, ?_, (a4 l hl).2⟩
    rw [← hlens', List.getElem?_map, hp]; rfl
  obtain ⟨maps, hmaps⟩ := createPush_total hgo pushes (by omega) hpv hst
  have hlk := pushMaps_links hgo pushes (by omega) hz hpv maps hmaps
  have hset : setMPIAlignBcast (lens.map Int.ofNat) = .ok go := hgo
  obtain ⟨hnu, hpull⟩ := setup_pull_links u hlk w hw order (by rw [hll]; exact ho)
  have htr : transferData z ty u pushes w order = (createTypes z ty u maps w).bind (fun x => pull x.2 x.1 order) := by
    simp only [transferData, hlens, hset, Res.ok_bind, hmaps]; rfl
  have hmapsl : maps.length = n := by rw [hlk.len, hll]
  -- the segments of the receiver
  have hseg : ∀ (t : Nat) (mt : Map), maps[t]? = some mt → t < n ∧ mt.ghostSizes = cnts parts t ∧
      mt.ghostIndex.length = (cnts parts t).sum ∧
      ∀ (r i : Nat) (p : List Int), parts[r]? = some p → p[i]? = some (t : Int) →
        mt.ghostIndex[before (cnts parts t) r + (p.take i).count (t : Int)]? = some ((before lens r : Int) + i) := by
    intro t mt hmt
    have ht : t < n := by rw [← hmapsl]; exact (List.getElem?_eq_some_iff.1 hmt).1
    have hag := fun (r : Nat) (p : List Int) (pu : List Int × List Nat) (hp : parts[r]? = some p) (hpu : pushes[r]? = some pu) =>
      push_constructed_agree hgo pushes (by omega) hz maps hmaps r t (maps[r]'(by
        have := (List.getElem?_eq_some_iff.1 hp).1; omega)) mt pu (by simp) hmt hpu
    have hsz : ∀ (r : Nat) (p : List Int) (pu : List Int × List Nat), parts[r]? = some p → pushes[r]? = some pu → (segment pu.1 pu.2 t).length = p.count (t : Int) ∧
        ∀ i : Nat, p[i]? = some (t : Int) → (segment pu.1 pu.2 t)[(p.take i).count (t : Int)]? = some (i : Int) := by
      intro r p pu hp hpu
      obtain ⟨pu', a1, a2, a3, _, a5⟩ := g3 r p hp
      rw [hpu] at a1; cases a1
      obtain ⟨b, e, s1, s2, s3, s4, s5⟩ := plainStarts_block (V n (fun t => p.count (t : Int))) t (by rw [V_length]; exact ht)
      have hv := (List.getElem?_eq_some_iff.1 (V_get n (fun t => p.count (t : Int)) t ht)).2
      rw [hv] at s3
      rw [sum_count n p (h p (List.mem_of_getElem? hp))] at s4
      rw [← a2] at s1 s2
      refine ⟨?_, ?_⟩
      · simp only [segment, s1, s2, List.length_take, List.length_drop]; omega
      · intro i hi
        have := count_take_lt p i t hi
        rw [segment_getElem? pu.1 pu.2 t b e _ s1 s2 (by omega)]
        have := a5 i t hi
        rw [Int.toNat_natCast, ← s5] at this
        exact this
    have hgs : mt.ghostSizes = cnts parts t := by
      have hl := hlk.gsLen hmt
      apply List.ext_getElem?
      intro r
      by_cases hr : r < n
      · have hp : parts[r]? = some (parts[r]'(by omega)) := by simp
        have hpu' : pushes[r]? = some (pushes[r]'(by omega)) := by simp
        rw [(hag r _ _ hp hpu').2.2.2, (hsz r _ _ hp hpu').1, cnts_get hp]
      · rw [List.getElem?_eq_none (by omega), List.getElem?_eq_none (by simp [cnts]; omega)]
    have hlast := (hlk.start_last hmt)
    have hgl : mt.ghostIndex.length = (cnts parts t).sum := by
      have h1 := hlast.1
      rw [List.getLast?_eq_getElem?, hlast.2, Nat.add_sub_cancel, hlk.gst hmt, hgs,
        plainStarts_get _ _ (by simp [cnts]; omega)] at h1
      rw [← Option.some.inj h1, List.take_of_length_le (by simp [cnts]; omega)]
    refine ⟨ht, hgs, hgl, ?_⟩
    intro r i p hp hi
    have hr : r < n := by rw [← hn]; exact (List.getElem?_eq_some_iff.1 hp).1
    have hpu' : pushes[r]? = some (pushes[r]'(by omega)) := by simp
    obtain ⟨b, e, s1, s2, s3, s4, s5⟩ := plainStarts_block (cnts parts t) r (by simp [cnts]; omega)
    have hc := (List.getElem?_eq_some_iff.1 (cnts_get hp t)).2
    rw [hc] at s3
    rw [← hgs, ← hlk.gst hmt] at s1 s2
    have := count_take_lt p i t hi
    have h5 := segment_getElem? mt.ghostIndex mt.ghostStart r b e ((p.take i).count (t : Int)) s1 s2 (by omega)
    rw [← s5, ← h5, (hag r p _ hp hpu').1, List.getElem?_map, (hsz r p _ hp hpu').2 i hi]; rfl
  refine ⟨?_, ?_, ?_⟩
  · rw [htr]
    cases hc : createTypes z ty u maps w with
    | ub => exact absurd hc hnu
    | abort => simp [Res.bind]
    | ok x =>
      obtain ⟨w3, e, _⟩ := hpull x.1 x.2 hc
      simp only [Res.bind, e]; simp
  · intro L K hL hK hbound
    obtain ⟨w1, types, hc⟩ := (createTypes_total_links u hlk w hw).2 L hL (by
      intro t mt hmt
      obtain ⟨ht, _, hgl, _⟩ := hseg t mt hmt
      have h1 : ∀ l : List Int, (l.map L).sum ≤ l.length * K := by
        intro l
        induction l with
        | nil => simp
        | cons a as ih =>
          have := hK a
          simp only [List.map_cons, List.sum_cons, List.length_cons, Nat.succ_mul]; omega
      have h2 := h1 mt.ghostIndex
      have h3 := hbound (cnts parts t).sum (by
        have := newLens_get n parts t (by omega) (by omega)
        exact List.mem_of_getElem? this)
      rw [hgl] at h2
      omega)
    obtain ⟨w3, e, _⟩ := hpull w1 types hc
    exact ⟨w3, by rw [htr, hc]; exact e⟩
  · intro w' hw'
    rw [htr] at hw'
    cases hc : createTypes z ty u maps w with
    | ub => exact absurd hc hnu
    | abort => rw [hc] at hw'; cases hw'
    | ok x =>
      obtain ⟨w3, e1, e2, e3, e4, e5⟩ := hpull x.1 x.2 hc
      rw [hc] at hw'
      simp only [Res.bind, e1] at hw'
      cases hw'
      have hsons : ∀ (t : Nat) (so : Arr.Array α), w'.sons[t]? = some so → ∃ mt, maps[t]? = some mt := by
        intro t so hso
        have := (List.getElem?_eq_some_iff.1 hso).1
        exact ⟨maps[t]'(by omega), by simp⟩
      refine ⟨?_, ?_⟩
      · apply List.ext_getElem?
        intro t
        rw [List.getElem?_map]
        by_cases ht : t < n
        · have hso : w'.sons[t]? = some (w'.sons[t]'(by omega)) := by simp
          have hmt : maps[t]? = some (maps[t]'(by omega)) := by simp
          have h1 := (e5 t _ _ hmt hso).1
          have h2 := (hseg t _ hmt).2.2.1
          have h3 := newLens_get n parts t (by omega) (by omega)
          rw [Int.toNat_natCast] at h3
          rw [hso, h3, Option.map_some, h1, h2]
        · rw [List.getElem?_eq_none (by omega), List.getElem?_eq_none (by rw [newLens_V, V_length]; omega)]; rfl
      · intro r i t g fa so ⟨p, hp, hi⟩ ⟨row, hr, hg⟩ hfa hso
        obtain ⟨mt, hmt⟩ := hsons t so hso
        obtain ⟨ht, _, hgl, hpos⟩ := hseg t mt hmt
        obtain ⟨row', hr', hg'⟩ := n3 r p i t hp hi
        rw [hr] at hr'; cases hr'
        rw [hg] at hg'; cases hg'
        have hil := (List.getElem?_eq_some_iff.1 hi).1
        have hlr : lens[r]? = some p.length := by rw [← hlens', List.getElem?_map, hp]; rfl
        obtain ⟨hrl, hle⟩ := List.getElem?_eq_some_iff.1 hlr
        have := (e5 t mt so hmt hso).2 _ _ r fa (hpos r i p hp hi) ⟨hrl, by omega, by omega⟩ hfa
        have k1 : ownRow (newLens n parts) t ((numOf n parts r i t p : Nat) : Int) =
            ((before (cnts parts t) r + (p.take i).count (t : Int) : Nat) : Int) := by
          unfold ownRow numOf
          rw [Int.toNat_natCast]
          omega
        have k2 : ownRow lens r ((before lens r : Int) + i) = (i : Int) := by unfold ownRow; omega
        rw [k1]
        rw [k2] at this
        exact this

end DNDSR.Part
