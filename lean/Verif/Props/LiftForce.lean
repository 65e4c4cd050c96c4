import Verif.Spec.LiftForce
import Mathlib.Tactic.Ring
import Mathlib.Tactic.Linarith
import Mathlib.Tactic.NormNum
import Mathlib.Data.Fin.VecNotation
import Mathlib.Tactic.Positivity
import Mathlib.Tactic.Abel
import Mathlib.Algebra.BigOperators.Group.List.Basic
import Mathlib.Algebra.BigOperators.Group.Finset.Basic

/-! # C110: the lift comes from the force on the named boundaries -/

namespace DNDSR.LiftF

variable {n : Nat} {zs : Tab} {mu : ℝ}

/-- the flag of a zone, as a number -/
def optN (zs : Tab) (id : Int) : Nat := if 0 < id then (match zs[id.toNat]? with | some z => z.2 | none => 0) else 0

theorem optOf_ok {id : Int} {o : Nat} (h : optOf zs id = .ok o) : optN zs id = o := by
  unfold optOf at h
  unfold optN
  split at h <;> rename_i h0
  · rw [if_pos h0]
    split at h <;> rename_i hz
    · rw [hz]; exact Res.ok.inj h
    · cases h
  · rw [if_neg h0]; exact Res.ok.inj h

theorem typeOf_ok {id : Int} {t : Zones.Kind} (h : typeOf zs id = .ok t) :
    (t = .wall ∨ (t = .wallInvis ∧ mu < 1 / 10 ^ 99)) ↔ IsWall zs mu id := by
  unfold typeOf at h
  unfold IsWall
  split at h <;> rename_i h0
  · split at h <;> rename_i hz
    · cases h
      rw [hz]
      constructor
      · intro hw; exact ⟨h0, _, rfl, hw⟩
      · rintro ⟨-, z', hz', hw⟩; cases hz'; exact hw
    · cases h
  · cases h
    constructor
    · intro hw; simp at hw
    · rintro ⟨h1, -⟩; exact absurd h1 h0

open Classical in
theorem addFace_spec {s s' : Sums n} {f : Face n} (h : addFace zs mu s f = .ok s') :
    s'.wall = s.wall - (if IsWall zs mu f.id then f.flux else 0) ∧
      ∀ i, s'.recs i = (s.recs i).map fun r => r - (if f.id = i ∧ optN zs i = 1 then f.flux else 0) := by
  unfold addFace at h
  simp only [Res.bind_ok_iff] at h
  obtain ⟨t, ht, w, hw, o, ho, h⟩ := h
  have hw' : w = s.wall - (if IsWall zs mu f.id then f.flux else 0) := by
    unfold addWall at hw
    by_cases hc : t = .wall ∨ (t = .wallInvis ∧ mu < 1 / 10 ^ 99)
    · rw [if_pos hc] at hw
      rw [if_pos ((typeOf_ok ht).1 hc)]
      split at hw
      · exact (Res.ok.inj hw).symm
      · cases hw
    · rw [if_neg hc] at hw
      rw [if_neg (fun hh => hc ((typeOf_ok ht).2 hh)), sub_zero]
      exact (Res.ok.inj hw).symm
  have ho' := optOf_ok ho
  split at h <;> rename_i h1
  · split at h <;> rename_i hr
    · rename_i r
      cases h
      refine ⟨hw', fun i => ?_⟩
      by_cases hi : f.id = i
      · subst hi
        simp [hr, ho', h1, sub_eq_add_neg]
      · simp [Function.update_of_ne (Ne.symm hi), hi]
    · cases h
  · cases h
    refine ⟨hw', fun i => ?_⟩
    by_cases hi : f.id = i
    · subst hi; simp [ho', h1]
    · simp [hi]

open Classical in
theorem addFaces_spec : ∀ (fs : List (Face n)) {s s' : Sums n}, addFaces zs mu s fs = .ok s' →
    s'.wall = s.wall - (fs.map fun f => if IsWall zs mu f.id then f.flux else 0).sum ∧
      ∀ i, s'.recs i = (s.recs i).map fun r => r - (fs.map fun f => if f.id = i ∧ optN zs i = 1 then f.flux else 0).sum
  | [], s, s', h => by cases h; simp
  | f :: fs, s, s', h => by
    unfold addFaces at h
    rw [Res.bind_ok_iff] at h
    obtain ⟨s1, h1, h2⟩ := h
    obtain ⟨a1, b1⟩ := addFace_spec h1
    obtain ⟨a2, b2⟩ := addFaces_spec fs h2
    refine ⟨?_, fun i => ?_⟩
    · rw [a2, a1, List.map_cons, List.sum_cons]; abel
    · rw [b2, b1, Option.map_map, List.map_cons, List.sum_cons]
      congr 1
      funext r
      simp only [Function.comp_apply]
      abel

theorem prepare_rec {old : Sums n} {i : Int} (h20 : 20 ≤ i) (h1 : optN zs i = 1) : (prepare zs old).recs i = some 0 := by
  unfold optN at h1
  rw [if_pos (by omega)] at h1
  have hlt : i < zs.length := by
    by_contra hc
    rw [List.getElem?_eq_none (by omega)] at h1
    simp at h1
  show (if defaultMax ≤ i ∧ _ then _ else _) = _
  rw [if_pos ⟨h20, hlt, fun hz => by
    have h2 : (1 : Nat) = 0 := h1.symm.trans hz
    omega⟩]

open Classical in
theorem localSums_spec : ∀ (ranks : List (Sums n × List (Face n))) {ss : List (Sums n)}, localSums zs mu ranks = .ok ss →
    ss.length = ranks.length ∧
    (ss.map Sums.wall).sum = -((ranks.flatMap Prod.snd).map fun f => if IsWall zs mu f.id then f.flux else 0).sum ∧
      ∀ i, 20 ≤ i → optN zs i = 1 → (∀ s ∈ ss, (s.recs i).isSome) ∧
        (ss.map fun s => (s.recs i).getD 0).sum = -((ranks.flatMap Prod.snd).map fun f => if f.id = i then f.flux else 0).sum
  | [], ss, h => by cases h; simp
  | r :: rs, ss, h => by
    unfold localSums at h
    simp only [Res.bind_ok_iff] at h
    obtain ⟨s, h1, ss', h2, h3⟩ := h
    cases h3
    obtain ⟨a1, b1⟩ := addFaces_spec r.2 h1
    obtain ⟨a0, a2, b2⟩ := localSums_spec rs h2
    refine ⟨by simp [a0], ?_, fun i hi h1 => ?_⟩
    · rw [List.map_cons, List.sum_cons, a2, a1, List.flatMap_cons, List.map_append, List.sum_append]
      simp only [prepare]
      abel
    · obtain ⟨c1, c2⟩ := b2 i hi h1
      have hb := b1 i
      rw [prepare_rec hi h1] at hb
      refine ⟨fun s' hs' => ?_, ?_⟩
      · rcases List.mem_cons.1 hs' with rfl | hs'
        · rw [hb]; rfl
        · exact c1 s' hs'
      · rw [List.map_cons, List.sum_cons, c2, hb, List.flatMap_cons, List.map_append, List.sum_append]
        simp only [h1, and_true, Option.map_some, Option.getD_some]
        abel

theorem chooseIds_spec : ∀ (is : List Int) {S T : Finset Int}, chooseIds zs is S = .ok T →
    (∀ i, i ∈ T ↔ i ∈ S ∨ i ∈ is) ∧ ∀ i ∈ is, (20 ≤ i ∧ optN zs i = 1) ∨ i = 2 ∨ i = 4
  | [], S, T, h => by cases h; simp
  | i :: is, S, T, h => by
    unfold chooseIds at h
    have key : ∀ {U}, chooseIds zs is (insert i S) = .ok U → ((20 ≤ i ∧ optN zs i = 1) ∨ i = 2 ∨ i = 4) →
        (∀ j, j ∈ U ↔ j ∈ S ∨ j ∈ i :: is) ∧ ∀ j ∈ i :: is, (20 ≤ j ∧ optN zs j = 1) ∨ j = 2 ∨ j = 4 := by
      intro U hU hi
      obtain ⟨a, b⟩ := chooseIds_spec is hU
      refine ⟨fun j => ?_, fun j hj => ?_⟩
      · rw [a, Finset.mem_insert, List.mem_cons]; tauto
      · rcases List.mem_cons.1 hj with rfl | hj
        · exact hi
        · exact b j hj
    split at h <;> rename_i h0
    · rw [Res.bind_ok_iff] at h
      obtain ⟨o, ho, h⟩ := h
      split at h <;> rename_i h1
      · exact key h (Or.inl ⟨h0, by rw [optOf_ok ho, h1]⟩)
      · cases h
    · split at h <;> rename_i h1
      · exact key h (Or.inr h1)
      · cases h

theorem addIds_spec {s : Sums n} (R : Int → Fin n → ℝ) : ∀ (is : List Int) (acc : Fin n → ℝ), (∀ i ∈ is, 20 ≤ i → s.recs i = some (R i)) →
    addIds s acc is = .ok (acc + (is.map fun i => if 20 ≤ i then R i else s.wall).sum)
  | [], acc, _ => by simp [addIds]
  | i :: is, acc, h => by
    have ih := fun a => addIds_spec R is a (fun j hj => h j (List.mem_cons_of_mem _ hj))
    unfold addIds
    by_cases h0 : 20 ≤ i
    · rw [if_pos (show i ≥ defaultMax from h0), h i List.mem_cons_self h0]
      simp only
      rw [ih, List.map_cons, List.sum_cons, if_pos h0, add_assoc]
    · rw [if_neg (show ¬ i ≥ defaultMax from h0), ih, List.map_cons, List.sum_cons, if_neg h0, add_assoc]

theorem sum_scale {α : Type} (l : List α) (c : α → ℕ) (g : α → Fin n → ℝ) (d : α → ℕ) :
    (l.map fun a => c a • g a).sum + (l.map fun a => d a • g a).sum = (l.map fun a => (c a + d a) • g a).sum := by
  induction l with
  | nil => simp
  | cons a l ih =>
    simp only [List.map_cons, List.sum_cons]
    rw [← ih, add_nsmul]; abel

open Classical in
theorem sum_ids (faces : List (Face n)) (W : Int → Prop) : ∀ (is : List Int), is.Nodup →
    (is.map fun i => if 20 ≤ i then -(faces.map fun f => if f.id = i then f.flux else 0).sum else -(faces.map fun f => if W f.id then f.flux else 0).sum).sum =
      -(faces.map fun f => ((if 20 ≤ f.id ∧ f.id ∈ is then 1 else 0) + (if W f.id then (is.filter fun i => decide (i < 20)).length else 0) : ℕ) • f.flux).sum
  | [], _ => by simp
  | i :: is, hn => by
    rw [List.nodup_cons] at hn
    rw [List.map_cons, List.sum_cons, sum_ids faces W is hn.2]
    by_cases h0 : 20 ≤ i
    · rw [if_pos h0, ← neg_add]
      congr 1
      have e : (faces.map fun f => if f.id = i then f.flux else 0) = faces.map fun f => (if f.id = i then 1 else 0 : ℕ) • f.flux := by
        refine List.map_congr_left fun f _ => ?_
        split <;> simp
      rw [e, sum_scale]
      congr 1
      refine List.map_congr_left fun f _ => ?_
      congr 1
      rw [List.filter_cons_of_neg (by simpa using h0)]
      by_cases hf : f.id = i
      · rw [hf]; simp [hn.1, h0]
      · simp [hf]
    · rw [if_neg h0, ← neg_add]
      congr 1
      have e : (faces.map fun f => if W f.id then f.flux else 0) = faces.map fun f => (if W f.id then 1 else 0 : ℕ) • f.flux := by
        refine List.map_congr_left fun f _ => ?_
        split <;> simp
      rw [e, sum_scale]
      congr 1
      refine List.map_congr_left fun f _ => ?_
      congr 1
      rw [List.filter_cons_of_pos (by simpa using h0), List.length_cons]
      have hm : (20 ≤ f.id ∧ f.id ∈ i :: is) ↔ (20 ≤ f.id ∧ f.id ∈ is) := by
        rw [List.mem_cons]
        constructor
        · rintro ⟨a, rfl | b⟩
          · exact absurd a h0
          · exact ⟨a, b⟩
        · rintro ⟨a, b⟩; exact ⟨a, Or.inr b⟩
      rw [if_congr hm rfl rfl]
      split <;> split <;> omega

/-- **C110** (what is summed)  Whatever the sums were before: after an evaluation every rank has the same total for the named boundaries, in which every face of
every rank has been counted `times` times. -/
theorem flux_total {is : List Int} {ids : Finset Int} (hc : chooseIds zs is ∅ = .ok ids) {ranks : List (Sums n × List (Face n))} {ss : List (Sums n)}
    (h : evaluate zs mu false ranks = .ok ss) : ss.length = ranks.length ∧ ∀ s ∈ ss,
      boundaryFlux ids s = .ok (-((ranks.flatMap Prod.snd).map fun f => times zs mu ids f.id • f.flux).sum) := by
  classical
  unfold evaluate at h
  simp only [Bool.false_eq_true, if_false, Res.bind_ok_iff] at h
  obtain ⟨ls, h1, h2⟩ := h
  cases h2
  obtain ⟨a0, a1, a2⟩ := localSums_spec ranks h1
  obtain ⟨c1, c2⟩ := chooseIds_spec is hc
  refine ⟨by simp [reduce, a0], fun s hs => ?_⟩
  unfold reduce at hs
  rw [List.mem_map] at hs
  obtain ⟨s0, hs0, rfl⟩ := hs
  unfold boundaryFlux
  rw [addIds_spec (fun i => -((ranks.flatMap Prod.snd).map fun f => if f.id = i then f.flux else 0).sum)]
  · simp only [zero_add]
    rw [a1, sum_ids _ (IsWall zs mu) _ (Finset.sort_nodup _ _)]
    congr 3
    refine List.map_congr_left fun f _ => ?_
    congr 1
    unfold times
    congr 1
    · simp
    · refine if_congr Iff.rfl ?_ rfl
      have : (List.filter (fun i => decide (i < 20)) (ids.sort (· ≤ ·))).toFinset = ids.filter fun i => i < 20 := by
        ext j; simp [Finset.mem_sort]
      rw [← this, List.toFinset_card_of_nodup ((Finset.sort_nodup _ _).filter _)]
  · intro i hi h20
    rw [Finset.mem_sort, c1] at hi
    have hi' : i ∈ is := by simpa using hi
    have ho : optN zs i = 1 := by
      rcases c2 i hi' with hh | hh | hh
      · exact hh.2
      · omega
      · omega
    obtain ⟨b1, b2⟩ := a2 i h20 ho
    obtain ⟨r, hr⟩ := Option.isSome_iff_exists.1 (b1 s0 hs0)
    simp only [hr, Option.map_some, b2]

theorem forceOn_eq (ids : Finset Int) (faces : List (Face n)) {c : Int → ℕ} (hc : ∀ f ∈ faces, c f.id = 1 ∧ f.id ∈ ids ∨ c f.id = 0 ∧ f.id ∉ ids) :
    -(faces.map fun f => c f.id • f.flux).sum = forceOn ids faces := by
  unfold forceOn
  congr 1
  induction faces with
  | nil => simp
  | cons f fs ih =>
    have ih := ih fun g hg => hc g (List.mem_cons_of_mem _ hg)
    rw [List.map_cons, List.sum_cons, ih]
    rcases hc f List.mem_cons_self with ⟨h1, h2⟩ | ⟨h1, h2⟩
    · rw [List.filter_cons_of_pos (by simpa using h2), h1, one_nsmul, List.map_cons, List.sum_cons]
    · rw [List.filter_cons_of_neg (by simpa using h2), h1, zero_nsmul, zero_add]

/-- **C110, partial**  If all named boundaries are zones of the user, the total is the force on the named boundaries: every face of theirs, on whatever rank, is
counted once, and no other.  Missing: the standard wall zones (`wall_force_partial`, `both_walls_twice`, `own_wall_twice`, `slip_wall_left_out`). -/
theorem named_force_partial {is : List Int} {ids : Finset Int} (hc : chooseIds zs is ∅ = .ok ids) (hu : ∀ i ∈ is, 20 ≤ i)
    {ranks : List (Sums n × List (Face n))} {ss : List (Sums n)} (h : evaluate zs mu false ranks = .ok ss) {s : Sums n} (hs : s ∈ ss) :
    (∀ i, i ∈ ids ↔ i ∈ is) ∧ boundaryFlux ids s = .ok (forceOn ids (ranks.flatMap Prod.snd)) := by
  classical
  have hm : ∀ i, i ∈ ids ↔ i ∈ is := fun i => by simpa using (chooseIds_spec is hc).1 i
  refine ⟨hm, ?_⟩
  rw [(flux_total hc h).2 s hs, forceOn_eq ids _ (c := times zs mu ids)]
  intro f _
  have he : (ids.filter fun i => i < 20) = ∅ := by
    rw [Finset.filter_eq_empty_iff]
    intro i hi; have := hu i ((hm i).1 hi); omega
  unfold times
  rw [he]
  by_cases hf : f.id ∈ ids
  · left; simp [hf, hu _ ((hm _).1 hf)]
  · right; simp [hf]

/-- **C110, partial** (the standard wall)  If one of the two standard wall zones is named, perhaps beside zones of the user, the total is the force on the named boundaries
provided that the walls among the faces are exactly the faces of this zone. -/
theorem wall_force_partial {is : List Int} {ids : Finset Int} (hc : chooseIds zs is ∅ = .ok ids) {w : Int} (hw : w ∈ is) (h20 : w < 20) (ho : ∀ i ∈ is, i < 20 → i = w)
    {ranks : List (Sums n × List (Face n))} (hf : ∀ f ∈ ranks.flatMap Prod.snd, IsWall zs mu f.id ↔ f.id = w)
    {ss : List (Sums n)} (h : evaluate zs mu false ranks = .ok ss) {s : Sums n} (hs : s ∈ ss) :
    boundaryFlux ids s = .ok (forceOn ids (ranks.flatMap Prod.snd)) := by
  classical
  have hm : ∀ i, i ∈ ids ↔ i ∈ is := fun i => by simpa using (chooseIds_spec is hc).1 i
  rw [(flux_total hc h).2 s hs, forceOn_eq ids _ (c := times zs mu ids)]
  intro f hff
  have he : (ids.filter fun i => i < 20) = {w} := by
    ext i
    rw [Finset.mem_filter, Finset.mem_singleton, hm]
    constructor
    · rintro ⟨a, b⟩; exact ho i a b
    · rintro rfl; exact ⟨hw, h20⟩
  unfold times
  rw [he, if_congr (hf f hff) rfl rfl]
  by_cases h1 : f.id = w
  · left; rw [h1]; simp [hm, hw]; omega
  · by_cases h2 : f.id ∈ ids
    · left
      have : 20 ≤ f.id := by
        by_contra hlt
        exact h1 (ho _ ((hm _).1 h2) (by omega))
      simp [h1, h2, this]
    · right; simp [h1, h2]

/-- **C110** (distribution)  However the faces are spread over the ranks and ordered, the total is the same. -/
theorem flux_partition {is : List Int} {ids : Finset Int} (hc : chooseIds zs is ∅ = .ok ids) {ranks ranks' : List (Sums n × List (Face n))}
    (hp : (ranks.flatMap Prod.snd).Perm (ranks'.flatMap Prod.snd)) {ss ss' : List (Sums n)}
    (h : evaluate zs mu false ranks = .ok ss) (h' : evaluate zs mu false ranks' = .ok ss') {s s' : Sums n} (hs : s ∈ ss) (hs' : s' ∈ ss') :
    boundaryFlux ids s = boundaryFlux ids s' := by
  rw [(flux_total hc h).2 s hs, (flux_total hc h').2 s' hs', (hp.map _).sum_eq]

/-- **C110** (evaluations that leave the sums)  An evaluation of the kind that does not update integrals keeps all sums. -/
theorem kept (zs : Tab) (mu : ℝ) (ranks : List (Sums n × List (Face n))) : evaluate zs mu true ranks = .ok (ranks.map Prod.fst) := rfl

/-! ### when an evaluation succeeds -/

/-- the mesh fits the settings: every external face has a zone in the table, walls belong to the rank, and zones with a flag are zones of the user -/
structure Fits (zs : Tab) (f : Face n) : Prop where
  zone : 0 < f.id → f.id < zs.length
  owned : 0 < f.id → f.owned = true
  flag : optN zs f.id = 1 → 20 ≤ f.id

theorem addFace_ok {s : Sums n} {f : Face n} (hf : Fits zs f) (hr : optN zs f.id = 1 → (s.recs f.id).isSome) : ∃ s', addFace zs mu s f = .ok s' := by
  classical
  by_cases h0 : 0 < f.id
  · have hz : ∃ z, zs[f.id.toNat]? = some z := ⟨_, List.getElem?_eq_getElem (by have := hf.zone h0; omega)⟩
    obtain ⟨z, hz⟩ := hz
    have ht : typeOf zs f.id = .ok z.1 := by unfold typeOf; rw [if_pos h0, hz]
    have ho : optOf zs f.id = .ok z.2 := by unfold optOf; rw [if_pos h0, hz]
    have hw : ∃ w, addWall mu s.wall f z.1 = .ok w := by
      unfold addWall
      rw [hf.owned h0]
      split
      · exact ⟨_, rfl⟩
      · exact ⟨_, rfl⟩
    obtain ⟨w, hw⟩ := hw
    unfold addFace
    rw [ht, Res.ok_bind, hw, Res.ok_bind, ho, Res.ok_bind]
    by_cases h1 : z.2 = 1
    · rw [if_pos h1]
      obtain ⟨r, hr⟩ := Option.isSome_iff_exists.1 (hr ((optOf_ok ho).trans h1))
      rw [hr]
      exact ⟨_, rfl⟩
    · rw [if_neg h1]; exact ⟨_, rfl⟩
  · have ht : typeOf zs f.id = .ok .unknown := by unfold typeOf; rw [if_neg h0]
    have ho : optOf zs f.id = .ok 0 := by unfold optOf; rw [if_neg h0]
    have hw : addWall mu s.wall f .unknown = .ok s.wall := by unfold addWall; rw [if_neg (by simp)]
    unfold addFace
    rw [ht, Res.ok_bind, hw, Res.ok_bind, ho, Res.ok_bind, if_neg (by decide)]
    exact ⟨_, rfl⟩

theorem addFaces_ok : ∀ (fs : List (Face n)) (s : Sums n), (∀ f ∈ fs, Fits zs f) → (∀ i, 20 ≤ i → optN zs i = 1 → (s.recs i).isSome) →
    ∃ s', addFaces zs mu s fs = .ok s'
  | [], s, _, _ => ⟨s, rfl⟩
  | f :: fs, s, hf, hr => by
    obtain ⟨s1, h1⟩ := addFace_ok (mu := mu) (hf f List.mem_cons_self) (fun h => hr _ ((hf f List.mem_cons_self).flag h) h)
    obtain ⟨s2, h2⟩ := addFaces_ok fs s1 (fun g hg => hf g (List.mem_cons_of_mem _ hg)) (fun i hi ho => by
      rw [(addFace_spec h1).2 i, Option.isSome_map]; exact hr i hi ho)
    exact ⟨s2, by unfold addFaces; rw [h1]; exact h2⟩

/-- **C110** (success)  On a mesh that fits the settings an evaluation succeeds. -/
theorem evaluate_ok : ∀ (ranks : List (Sums n × List (Face n))), (∀ r ∈ ranks, ∀ f ∈ r.2, Fits zs f) → ∃ ss, evaluate zs mu false ranks = .ok ss := by
  intro ranks hf
  have : ∃ ss, localSums zs mu ranks = .ok ss := by
    induction ranks with
    | nil => exact ⟨[], rfl⟩
    | cons r rs ih =>
      obtain ⟨ss, h⟩ := ih fun r' hr' => hf r' (List.mem_cons_of_mem _ hr')
      obtain ⟨s, hs⟩ := addFaces_ok (mu := mu) r.2 (prepare zs r.1) (hf r List.mem_cons_self) (fun i hi ho => by rw [prepare_rec hi ho]; rfl)
      exact ⟨s :: ss, by unfold localSums; rw [hs, Res.ok_bind, h, Res.ok_bind]⟩
  obtain ⟨ss, h⟩ := this
  exact ⟨reduce ss, by unfold evaluate; simp [h]⟩

/-! ### examples, and what goes wrong with the standard walls -/

/-- a table with the standard zones, of which the first ones matter here, and one zone of the user, number 20, that is a wall and is recorded -/
def tab : Tab := [(.unknown, 0), (.unknown, 0), (.wall, 0), (.far, 0), (.wallInvis, 0)] ++ List.replicate 15 (.unknown, 0) ++ [(.wall, 1)]

/-- sums before the first evaluation -/
def fresh (n : Nat) : Sums n := ⟨0, fun _ => none⟩

theorem fits_tab {f : Face n} (ho : f.owned = true) (h : f.id = 0 ∨ f.id = 2 ∨ f.id = 3 ∨ f.id = 4 ∨ f.id = 20) : Fits tab f := by
  refine ⟨fun _ => ?_, fun _ => ho, fun h1 => ?_⟩
  · rcases h with h | h | h | h | h <;> rw [h] <;> decide
  · rcases h with h | h | h | h | h <;> rw [h] at h1 ⊢
    all_goals first | exact le_refl _ | (exfalso; revert h1; decide)

theorem wall_2 : IsWall tab mu 2 := ⟨by decide, _, rfl, Or.inl rfl⟩
theorem wall_20 : IsWall tab mu 20 := ⟨by decide, _, rfl, Or.inl rfl⟩
theorem wall_4 : IsWall tab mu 4 ↔ mu < 1 / 10 ^ 99 := by
  constructor
  · rintro ⟨-, z, hz, h | h⟩
    · cases hz; cases h
    · exact h.2
  · intro h; exact ⟨by decide, _, rfl, Or.inr ⟨rfl, h⟩⟩
theorem wall_0 : ¬ IsWall tab mu 0 := fun h => absurd h.1 (by decide)

/-- two ranks with walls of the user and inner faces; the hypotheses of `named_force_partial` hold -/
example : ∃ ids ss, chooseIds tab [20, 20] ∅ = .ok ids ∧
    evaluate tab (1 : ℝ) false [(fresh 2, [⟨20, ![1, 2], true⟩, ⟨0, ![9, 9], true⟩]), (fresh 2, [⟨20, ![3, 4], true⟩, ⟨2, ![5, 5], true⟩])] = .ok ss ∧
    ∀ s ∈ ss, boundaryFlux ids s = .ok (-(![1, 2] + ![3, 4])) := by
  obtain ⟨ss, hss⟩ := evaluate_ok (zs := tab) (mu := 1) [(fresh 2, [⟨20, ![1, 2], true⟩, ⟨0, ![9, 9], true⟩]), (fresh 2, [⟨20, ![3, 4], true⟩, ⟨2, ![5, 5], true⟩])]
    (fun r hr f hf => by
      simp only [List.mem_cons, List.not_mem_nil, or_false] at hr
      rcases hr with rfl | rfl <;> simp only [List.mem_cons, List.not_mem_nil, or_false] at hf <;> rcases hf with rfl | rfl <;> exact fits_tab rfl (by simp))
  have hc : chooseIds tab [20, 20] ∅ = .ok {20} := by decide
  refine ⟨{20}, ss, hc, hss, fun s hs => ?_⟩
  rw [(named_force_partial hc (by simp) hss hs).2]
  simp [forceOn]

/-- **C110 fails** when both standard walls are named: for every mesh whose faces are walls, the force is counted twice. -/
theorem both_walls_twice : ∃ ids, chooseIds tab [2, 4] ∅ = .ok ids ∧ ∀ (x : Fin n → ℝ) (mu : ℝ), ∃ ss, evaluate tab mu false [(fresh n, [⟨2, x, true⟩])] = .ok ss ∧
    ss.length = 1 ∧ ∀ s ∈ ss, boundaryFlux ids s = .ok (2 • forceOn ids [⟨2, x, true⟩]) := by
  classical
  have hc : chooseIds tab [2, 4] ∅ = .ok {4, 2} := by decide
  refine ⟨_, hc, fun x mu => ?_⟩
  obtain ⟨ss, hss⟩ := evaluate_ok (zs := tab) (mu := mu) [(fresh n, [⟨2, x, true⟩])]
    (fun r hr f hf => by
      simp only [List.mem_cons, List.not_mem_nil, or_false] at hr
      subst hr
      simp only [List.mem_cons, List.not_mem_nil, or_false] at hf
      subst hf
      exact fits_tab rfl (by simp))
  obtain ⟨h1, h2⟩ := flux_total hc hss
  refine ⟨ss, hss, h1, fun s hs => ?_⟩
  rw [h2 s hs]
  have ht : times tab mu {4, 2} 2 = 2 := by
    unfold times
    rw [if_pos wall_2, if_neg (by decide)]
    decide
  simp [forceOn, ht]

/-- **C110 fails** when a wall of the user is named beside the standard wall: it is counted twice. -/
theorem own_wall_twice : ∃ ids, chooseIds tab [2, 20] ∅ = .ok ids ∧ ∀ (x : Fin n → ℝ) (mu : ℝ), ∃ ss, evaluate tab mu false [(fresh n, [⟨20, x, true⟩])] = .ok ss ∧
    ss.length = 1 ∧ ∀ s ∈ ss, boundaryFlux ids s = .ok (2 • forceOn ids [⟨20, x, true⟩]) := by
  classical
  have hc : chooseIds tab [2, 20] ∅ = .ok {20, 2} := by decide
  refine ⟨_, hc, fun x mu => ?_⟩
  obtain ⟨ss, hss⟩ := evaluate_ok (zs := tab) (mu := mu) [(fresh n, [⟨20, x, true⟩])]
    (fun r hr f hf => by
      simp only [List.mem_cons, List.not_mem_nil, or_false] at hr
      subst hr
      simp only [List.mem_cons, List.not_mem_nil, or_false] at hf
      subst hf
      exact fits_tab rfl (by simp))
  obtain ⟨h1, h2⟩ := flux_total hc hss
  refine ⟨ss, hss, h1, fun s hs => ?_⟩
  rw [h2 s hs]
  have ht : times tab mu {20, 2} 20 = 2 := by
    unfold times
    rw [if_pos wall_20, if_pos (by decide)]
    decide
  simp [forceOn, ht]

/-- **C110 fails** when only the standard wall is named: walls of the user are part of the force, although they are not named. -/
theorem other_wall_counted : ∃ ids, chooseIds tab [2] ∅ = .ok ids ∧ ∀ (x : Fin n → ℝ) (mu : ℝ), ∃ ss, evaluate tab mu false [(fresh n, [⟨20, x, true⟩])] = .ok ss ∧
    ss.length = 1 ∧ forceOn ids [⟨20, x, true⟩] = 0 ∧ ∀ s ∈ ss, boundaryFlux ids s = .ok (-x) := by
  classical
  have hc : chooseIds tab [2] ∅ = .ok {2} := by decide
  refine ⟨_, hc, fun x mu => ?_⟩
  obtain ⟨ss, hss⟩ := evaluate_ok (zs := tab) (mu := mu) [(fresh n, [⟨20, x, true⟩])]
    (fun r hr f hf => by
      simp only [List.mem_cons, List.not_mem_nil, or_false] at hr
      subst hr
      simp only [List.mem_cons, List.not_mem_nil, or_false] at hf
      subst hf
      exact fits_tab rfl (by simp))
  obtain ⟨h1, h2⟩ := flux_total hc hss
  refine ⟨ss, hss, h1, by simp [forceOn], fun s hs => ?_⟩
  rw [h2 s hs]
  have ht : times tab mu {2} 20 = 1 := by
    unfold times
    rw [if_pos wall_20, if_neg (by decide)]
    decide
  simp [ht]

/-- **C110 fails** for walls with slip in a viscous fluid: the named zone has no part in the force. -/
theorem slip_wall_left_out : ∃ ids, chooseIds tab [4] ∅ = .ok ids ∧ ∀ (x : Fin n → ℝ) (mu : ℝ), 1 / 10 ^ 99 ≤ mu → ∃ ss, evaluate tab mu false [(fresh n, [⟨4, x, true⟩])] = .ok ss ∧
    ss.length = 1 ∧ forceOn ids [⟨4, x, true⟩] = -x ∧ ∀ s ∈ ss, boundaryFlux ids s = .ok 0 := by
  classical
  have hc : chooseIds tab [4] ∅ = .ok {4} := by decide
  refine ⟨_, hc, fun x mu hmu => ?_⟩
  obtain ⟨ss, hss⟩ := evaluate_ok (zs := tab) (mu := mu) [(fresh n, [⟨4, x, true⟩])]
    (fun r hr f hf => by
      simp only [List.mem_cons, List.not_mem_nil, or_false] at hr
      subst hr
      simp only [List.mem_cons, List.not_mem_nil, or_false] at hf
      subst hf
      exact fits_tab rfl (by simp))
  obtain ⟨h1, h2⟩ := flux_total hc hss
  refine ⟨ss, hss, h1, by simp [forceOn], fun s hs => ?_⟩
  rw [h2 s hs]
  have ht : times tab mu {4} 4 = 0 := by
    unfold times
    rw [if_neg (fun h => absurd (wall_4.1 h) (not_lt.2 hmu)), if_neg (by decide)]
  simp [ht]

/-- in a fluid without viscosity the hypotheses of `wall_force_partial` hold for the wall with slip -/
example : ∃ ids ss, chooseIds tab [4] ∅ = .ok ids ∧ evaluate tab (0 : ℝ) false [(fresh 1, [⟨4, ![7], true⟩, ⟨0, ![9], true⟩])] = .ok ss ∧
    ∀ s ∈ ss, boundaryFlux ids s = .ok (-![7]) := by
  obtain ⟨ss, hss⟩ := evaluate_ok (zs := tab) (mu := 0) [(fresh 1, [⟨4, ![7], true⟩, ⟨0, ![9], true⟩])]
    (fun r hr f hf => by
      simp only [List.mem_cons, List.not_mem_nil, or_false] at hr
      subst hr
      simp only [List.mem_cons, List.not_mem_nil, or_false] at hf
      rcases hf with rfl | rfl <;> exact fits_tab rfl (by simp))
  have hc : chooseIds tab [4] ∅ = .ok {4} := by decide
  refine ⟨{4}, ss, hc, hss, fun s hs => ?_⟩
  rw [wall_force_partial hc (w := 4) (by simp) (by decide) (by simp) ?_ hss hs]
  · simp [forceOn]
  · intro f hf
    simp only [List.flatMap_cons, List.flatMap_nil, List.append_nil, List.mem_cons, List.not_mem_nil, or_false] at hf
    rcases hf with rfl | rfl
    · exact ⟨fun _ => rfl, fun _ => wall_4.2 (by positivity)⟩
    · exact ⟨fun h => absurd h wall_0, fun h => absurd h (by decide)⟩

end DNDSR.LiftF
