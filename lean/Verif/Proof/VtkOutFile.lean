import Verif.Proof.VtkOutConn

namespace DNDSR.VtkOut

open DNDSR.IMap DNDSR.Elem DNDSR.Bits DNDSR.Faces DNDSR.MeshAdj

/-- the first `n` pieces one after the other -/
def cum {α : Type} (p : Nat → List α) (n : Nat) : List α := ((List.range n).map p).flatten

theorem cum_zero {α : Type} (p : Nat → List α) : cum p 0 = [] := rfl

theorem cum_succ {α : Type} (p : Nat → List α) (n : Nat) : cum p (n + 1) = cum p n ++ p n := by
  simp [cum, List.range_succ]

theorem cum_split {α : Type} (p : Nat → List α) {r n : Nat} (h : r < n) : ∃ rest, cum p n = cum p r ++ (p r ++ rest) := by
  induction n with
  | zero => omega
  | succ n ih =>
    rw [cum_succ]
    by_cases hr : r = n
    · subst hr; exact ⟨[], by simp⟩
    · obtain ⟨rest, e⟩ := ih (by omega)
      exact ⟨rest ++ p n, by rw [e]; simp⟩

theorem cum_mono {α : Type} (p : Nat → List α) {r n : Nat} (h : r ≤ n) : (cum p r).length ≤ (cum p n).length := by
  rcases Nat.lt_or_eq_of_le h with h | h
  · obtain ⟨rest, e⟩ := cum_split p h
    rw [e]; simp
  · rw [h]

theorem cum_get {α : Type} (p : Nat → List α) {r n : Nat} (h : r < n) {k : Nat} {x : α} (hk : (p r)[k]? = some x) :
    (cum p n)[(cum p r).length + k]? = some x := by
  obtain ⟨rest, e⟩ := cum_split p h
  have hkl := (List.getElem?_eq_some_iff.1 hk).1
  rw [e, List.getElem?_append_right (by omega), Nat.add_sub_cancel_left, List.getElem?_append_left hkl, hk]

theorem cum_find {α : Type} (p : Nat → List α) (n i : Nat) (h : i < (cum p n).length) :
    ∃ r k, r < n ∧ k < (p r).length ∧ i = (cum p r).length + k := by
  induction n with
  | zero => simp [cum_zero] at h
  | succ n ih =>
    by_cases hi : i < (cum p n).length
    · obtain ⟨r, k, h1, h2, h3⟩ := ih hi
      exact ⟨r, k, by omega, h2, h3⟩
    · rw [cum_succ, List.length_append] at h
      exact ⟨n, i - (cum p n).length, by omega, by omega, by omega⟩

theorem cum_map {α β : Type} (f : α → β) (p : Nat → List α) (n : Nat) : cum (fun r => (p r).map f) n = (cum p n).map f := by
  induction n with
  | zero => rfl
  | succ n ih => rw [cum_succ, cum_succ, ih, List.map_append]

theorem cum_flatten {α : Type} (p : Nat → List (List α)) (n : Nat) : cum (fun r => (p r).flatten) n = (cum p n).flatten := by
  induction n with
  | zero => rfl
  | succ n ih => rw [cum_succ, cum_succ, ih, List.flatten_append]

theorem cum_congr {α : Type} {p q : Nat → List α} {n : Nat} (h : ∀ r, r < n → p r = q r) : cum p n = cum q n := by
  refine congrArg List.flatten (List.map_congr_left fun r hr => h r (List.mem_range.1 hr))

theorem cum_one {α : Type} (x : α) (m n : Nat) : cum (fun r => if r = m then [x] else []) n = if m < n then [x] else [] := by
  induction n with
  | zero => rfl
  | succ n ih =>
    rw [cum_succ, ih]
    by_cases h1 : m < n
    · rw [if_pos h1, if_neg (by omega), if_pos (by omega)]; rfl
    · by_cases h2 : n = m
      · rw [if_neg h1, if_pos h2, if_pos (by omega)]; rfl
      · rw [if_neg h1, if_neg h2, if_neg (by omega)]; rfl

theorem scanBefore_eq {α : Type} (p : Nat → List α) (l : List Nat) (n : Nat) (hl : l.length = n)
    (h : ∀ r, r < n → l[r]? = some (p r).length) (r : Nat) (hr : r ≤ n) : scanBefore l r = (cum p r).length := by
  induction r with
  | zero => rfl
  | succ r ih =>
    have h1 := h r (by omega)
    rw [cum_succ, List.length_append, ← ih (by omega), scanBefore, scanBefore, List.take_succ, h1, List.sum_append]
    simp

/-- slabs one after the other fill a dataset; an empty slab may start anywhere -/
theorem writeDataset_spec {α : Type} (n : Nat) (p : Nat → List α) (parts : List (Nat × List α)) (hl : parts.length = n) (N : Nat)
    (hN : N = (cum p n).length)
    (h : ∀ r, r < n → ∃ o, parts[r]? = some (o, p r) ∧ (o = (cum p r).length ∨ p r = [] ∧ o ≤ N)) :
    writeDataset N parts = .ok ((cum p n).map some) := by
  have key : ∀ m, m ≤ n → (parts.take m).foldlM (fun d (p : Nat × List α) =>
      if p.1 + p.2.length ≤ d.length then
        if ((d.drop p.1).take p.2.length).all Option.isNone then
          Res.ok (d.take p.1 ++ p.2.map some ++ d.drop (p.1 + p.2.length))
        else .ub
      else .abort) (List.replicate N none) = .ok ((cum p m).map some ++ List.replicate (N - (cum p m).length) none) := by
    intro m
    induction m with
    | zero => intro _; simp [cum_zero, pure, Res.pure_eq]
    | succ m ih =>
      intro hm
      obtain ⟨o, h1, h2⟩ := h m (by omega)
      have hle : (cum p (m + 1)).length ≤ N := by rw [hN]; exact cum_mono p hm
      rw [cum_succ, List.length_append] at hle
      rw [List.take_succ, h1, Option.toList_some, List.foldlM_append, ih (by omega)]
      simp only [List.foldlM_cons, List.foldlM_nil]
      rw [Res.ok_bind, bind_pure]
      rcases h2 with rfl | ⟨h2, h3⟩
      · have hlen : ((cum p m).map some ++ List.replicate (N - (cum p m).length) (none : Option α)).length = N := by simp; omega
        rw [hlen, if_pos hle]
        have hd : ((cum p m).map some ++ List.replicate (N - (cum p m).length) (none : Option α)).drop (cum p m).length =
            List.replicate (N - (cum p m).length) none := List.drop_left' (by simp)
        rw [hd, if_pos (by simp), List.take_left' (by simp), ← List.drop_drop, hd, cum_succ, List.drop_replicate, List.map_append,
          List.length_append, Nat.sub_add_eq]
      · rw [h2]
        have hlen : ((cum p m).map some ++ List.replicate (N - (cum p m).length) (none : Option α)).length = N := by simp; omega
        rw [if_pos (by rw [hlen]; simpa using h3), if_pos (by simp), cum_succ, h2]
        simp
  have := key n (Nat.le_refl n)
  rw [List.take_of_length_le (by omega), hN, Nat.sub_self] at this
  rw [writeDataset, hN, this]
  simp

theorem runSums_length (ls : List Nat) : ∀ o, (runSums o ls).length = ls.length + 1 := by
  induction ls with
  | nil => intro o; rfl
  | cons l ls ih => intro o; simp [runSums, ih]

theorem runSums_get {α : Type} (ls : List (List α)) : ∀ (o k : Nat), k ≤ ls.length →
    (runSums o (ls.map List.length))[k]? = some (o + (ls.take k).flatten.length) := by
  induction ls with
  | nil => intro o k hk; have : k = 0 := by simpa using hk
           subst this; rfl
  | cons l ls ih =>
    intro o k hk
    cases k with
    | zero => rfl
    | succ k =>
      simp only [List.map_cons, runSums, List.getElem?_cons_succ]
      rw [ih (o + l.length) k (by simpa using hk)]
      simp only [List.take_succ_cons, List.flatten_cons, List.length_append]
      congr 1; omega

theorem cum_take {α : Type} (p : Nat → List α) {r n k : Nat} (h : r < n) (hk : k ≤ (p r).length) :
    (cum p n).take ((cum p r).length + k) = cum p r ++ (p r).take k := by
  obtain ⟨rest, e⟩ := cum_split p h
  rw [e, List.take_length_add_append, List.take_append_of_le_length hk]

/-- what is known about the ranks when the file is written: `T` types, `I` rows of points, `L` points, by rank -/
structure Ready {D : Type} (n : Nat) (T : Nat → List Nat) (I : Nat → List (List Nat)) (pts : Nat → List Per.V3)
    (cdv pdv : Nat → Nat → List D) (jobs : List (Job D)) : Prop where
  len : jobs.length = n
  types : ∀ r, r < n → (T r).length = (I r).length
  at' : ∀ r (j : Job D), jobs[r]? = some j →
    j.vtk = { types := T r, offsets := (runSums 0 ((I r).map List.length)).map (fun o => o + (cum I r).flatten.length)
              conn := (I r).flatten.map (fun n : Nat => (n : Int)), nodeOffset := (cum pts r).length, cellOffset := (cum I r).length
              connGlobal := (cum I n).flatten.length, nCellGlobal := (cum I n).length, nNodeGlobal := (cum pts n).length } ∧
    j.rk.cells.length = (I r).length ∧ nPts j.rk j.re = (pts r).length ∧ (outPts j.rk j.re).map (fun p => p.1) = pts r ∧
    (∀ a, (List.range j.rk.cells.length).map (fun iC => j.data.cell a iC) = cdv a r) ∧
    (∀ a, (outPts j.rk j.re).map (fun p => j.data.node a p.2) = pdv a r)

theorem sum_eq_cum {α β : Type} (jobs : List β) (f : β → Nat) (p : Nat → List α) (n : Nat) (hl : jobs.length = n)
    (h : ∀ r j, jobs[r]? = some j → f j = (p r).length) : (jobs.map f).sum = (cum p n).length := by
  have := scanBefore_eq p (jobs.map f) n (by simpa using hl) (fun r hr => by
    rw [List.getElem?_map, List.getElem?_eq_getElem (by omega)]
    exact congrArg some (h r _ (List.getElem?_eq_getElem _))) n (Nat.le_refl n)
  rw [← this, scanBefore, List.take_of_length_le (by simp; omega)]

theorem dataGroup_spec {D : Type} (names : List String) (hn : names.Nodup) (N n : Nat) (p : Nat → Nat → List D)
    (parts : Nat → List (Nat × List D)) (h : ∀ i, writeDataset N (parts i) = .ok ((cum (p i) n).map some)) :
    dataGroup names N parts = .ok (names.zipIdx.map (fun q => (q.1, (cum (p q.2) n).map some))) := by
  rw [dataGroup, Res.assert_true _ hn, Res.ok_bind]
  refine (forRanks_ok _ _ _ _).2 ⟨by simp, fun i name hi => ⟨(name, (cum (p i) n).map some), ?_, ?_⟩⟩
  · rw [List.getElem?_map, List.getElem?_zipIdx, hi]; simp
  · rw [Nat.zero_add, h, Res.ok_bind]

theorem write_spec {D : Type} {n : Nat} {T : Nat → List Nat} {I : Nat → List (List Nat)} {pts : Nat → List Per.V3}
    {cdv pdv : Nat → Nat → List D} {jobs : List (Job D)} (H : Ready n T I pts cdv pdv jobs) (mRank : Nat) (hm : mRank < n)
    (hcd : ∀ a r, r < n → (cdv a r).length = (I r).length) (hpd : ∀ a r, r < n → (pdv a r).length = (pts r).length)
    (cellNames pointNames : List String) (h1 : cellNames.Nodup) (h2 : pointNames.Nodup) :
    ∃ offs : List Nat, write mRank cellNames pointNames jobs = .ok
      { numberOfCells := [some (cum I n).length], numberOfPoints := [some (cum pts n).length]
        numberOfConnectivityIds := [some (cum I n).flatten.length], points := (cum pts n).map some
        offsets := offs.map some, types := (cum T n).map some
        connectivity := ((cum I n).flatten.map (fun n : Nat => (n : Int))).map some
        cellData := cellNames.zipIdx.map (fun q => (q.1, (cum (cdv q.2) n).map some))
        pointData := pointNames.zipIdx.map (fun q => (q.1, (cum (pdv q.2) n).map some)) } ∧
      offs.length = (cum I n).length + 1 ∧ ∀ i, i ≤ (cum I n).length → offs[i]? = some ((cum I n).take i).flatten.length := by
  have hlenT : ∀ r, r ≤ n → (cum T r).length = (cum I r).length := by
    intro r hr
    induction r with
    | zero => rfl
    | succ r ih => rw [cum_succ, cum_succ, List.length_append, List.length_append, ih (by omega), H.types r (by omega)]
  have hlenC : ∀ a r, r ≤ n → (cum (cdv a) r).length = (cum I r).length := by
    intro a r hr
    induction r with
    | zero => rfl
    | succ r ih => rw [cum_succ, cum_succ, List.length_append, List.length_append, ih (by omega), hcd a r (by omega)]
  have hlenP : ∀ a r, r ≤ n → (cum (pdv a) r).length = (cum pts r).length := by
    intro a r hr
    induction r with
    | zero => rfl
    | succ r ih => rw [cum_succ, cum_succ, List.length_append, List.length_append, ih (by omega), hpd a r (by omega)]
  have hget : ∀ r, r < n → ∃ j, jobs[r]? = some j := fun r hr => ⟨_, List.getElem?_eq_getElem (by rw [H.len]; exact hr)⟩
  have e1 : (jobs.map (fun j => nPts j.rk j.re)).sum = (cum pts n).length :=
    sum_eq_cum jobs _ pts n H.len (fun r j hj => (H.at' r j hj).2.2.1)
  have e2 : (jobs.map (fun j => j.rk.cells.length)).sum = (cum I n).length :=
    sum_eq_cum jobs _ I n H.len (fun r j hj => (H.at' r j hj).2.1)
  obtain ⟨j0, hj0⟩ := hget 0 (by omega)
  have hv0 := (H.at' 0 j0 hj0).1
  -- the asserts
  obtain ⟨us, u1, _, _⟩ := N2C.forRanks_all (fun _ (j : Job D) => do
      Res.assert ((cum pts n).length = j.vtk.nNodeGlobal)
      Res.assert ((cum I n).length = j.vtk.nCellGlobal)
      Res.assert (j.vtk.offsets.length = j.rk.cells.length + 1)) (fun _ _ _ => True) jobs (fun r j hj => by
      obtain ⟨a1, a2, _⟩ := H.at' r j hj
      refine ⟨(), ?_, trivial⟩
      rw [a1]
      rw [Res.assert_true _ rfl, Res.ok_bind, Res.assert_true _ rfl, Res.ok_bind]
      rw [Res.assert_true _ (by simp [runSums_length, a2])])
  -- the numbers
  have hnum : ∀ (f : Vtk → Nat) (x : Nat), (∀ (r : Nat) (j : Job D), jobs[r]? = some j → f j.vtk = x) →
      writeDataset 1 ((jobs.zipIdx).map (fun p => (0, if p.2 = mRank then [f p.1.vtk] else []))) = .ok [some x] := by
    intro f x hx
    have := writeDataset_spec n (fun r => if r = mRank then [x] else [])
      ((jobs.zipIdx).map (fun p => (0, if p.2 = mRank then [f p.1.vtk] else []))) (by simp [H.len]) 1
      (by rw [cum_one, if_pos hm]; rfl) (fun r hr => by
        obtain ⟨j, hj⟩ := hget r hr
        refine ⟨0, ?_, ?_⟩
        · rw [List.getElem?_map, List.getElem?_zipIdx, hj]
          simp only [Option.map_some, Nat.zero_add, hx r j hj]
        · by_cases hrm : r = mRank
          · left; rw [cum_one, if_neg (by omega)]; rfl
          · right; exact ⟨if_neg hrm, by omega⟩)
    rw [this, cum_one, if_pos hm]; rfl
  have w1 := hnum (fun v => v.nCellGlobal) (cum I n).length (fun r j hj => by rw [(H.at' r j hj).1])
  have w2 := hnum (fun v => v.nNodeGlobal) (cum pts n).length (fun r j hj => by rw [(H.at' r j hj).1])
  have w3 := hnum (fun v => v.connGlobal) (cum I n).flatten.length (fun r j hj => by rw [(H.at' r j hj).1])
  have w4 := writeDataset_spec n pts (jobs.map (fun (j : Job D) => (j.vtk.nodeOffset, (outPts j.rk j.re).map (fun p => p.1)))) (by simp [H.len])
    (cum pts n).length rfl (fun r hr => by
      obtain ⟨j, hj⟩ := hget r hr
      obtain ⟨a1, a2, a3, a4, a5, a6⟩ := H.at' r j hj
      exact ⟨_, by rw [List.getElem?_map, hj, Option.map_some, a4], Or.inl (by rw [a1])⟩)
  have w6 := writeDataset_spec n T (jobs.map (fun (j : Job D) => (j.vtk.cellOffset, j.vtk.types))) (by simp [H.len])
    (cum I n).length (hlenT n (Nat.le_refl n)).symm (fun r hr => by
      obtain ⟨j, hj⟩ := hget r hr
      obtain ⟨a1, a2, a3, a4, a5, a6⟩ := H.at' r j hj
      exact ⟨_, by rw [List.getElem?_map, hj, Option.map_some, a1], Or.inl (hlenT r (by omega)).symm⟩)
  have w7 := writeDataset_spec n (fun r => (I r).flatten.map (fun n : Nat => (n : Int)))
    (jobs.map (fun (j : Job D) => (j.vtk.offsets.headD 0, j.vtk.conn))) (by simp [H.len])
    (cum I n).flatten.length (by rw [cum_map, cum_flatten, List.length_map]) (fun r hr => by
      obtain ⟨j, hj⟩ := hget r hr
      obtain ⟨a1, a2, a3, a4, a5, a6⟩ := H.at' r j hj
      refine ⟨_, by rw [List.getElem?_map, hj, Option.map_some, a1], Or.inl ?_⟩
      rw [cum_map, cum_flatten, List.length_map]
      cases hI : I r <;> simp [runSums])
  rw [cum_map, cum_flatten] at w7
  have w8 := dataGroup_spec cellNames h1 (cum I n).length n cdv (fun i => jobs.map (fun (j : Job D) =>
      (j.vtk.cellOffset, (List.range j.rk.cells.length).map (fun iC => j.data.cell i iC)))) (fun a =>
    writeDataset_spec n (cdv a) _ (by simp [H.len]) _ (hlenC a n (Nat.le_refl n)).symm (fun r hr => by
      obtain ⟨j, hj⟩ := hget r hr
      obtain ⟨a1, a2, a3, a4, a5, a6⟩ := H.at' r j hj
      exact ⟨_, by rw [List.getElem?_map, hj, Option.map_some, a5, a1], Or.inl (hlenC a r (by omega)).symm⟩))
  have w9 := dataGroup_spec pointNames h2 (cum pts n).length n pdv (fun i => jobs.map (fun (j : Job D) =>
      (j.vtk.nodeOffset, (outPts j.rk j.re).map (fun p => j.data.node i p.2)))) (fun a =>
    writeDataset_spec n (pdv a) _ (by simp [H.len]) _ (hlenP a n (Nat.le_refl n)).symm (fun r hr => by
      obtain ⟨j, hj⟩ := hget r hr
      obtain ⟨a1, a2, a3, a4, a5, a6⟩ := H.at' r j hj
      exact ⟨_, by rw [List.getElem?_map, hj, Option.map_some, a6, a1], Or.inl (hlenP a r (by omega)).symm⟩))
  -- the offsets
  let off : Nat → List Nat := fun r => ((runSums 0 ((I r).map List.length)).map (fun o => o + (cum I r).flatten.length)).take
    ((I r).length + if r = n - 1 then 1 else 0)
  have hoffl : ∀ r, (off r).length = (I r).length + if r = n - 1 then 1 else 0 := by
    intro r
    simp only [off, List.length_take, List.length_map, runSums_length]
    split <;> omega
  have hoffc : ∀ r, r < n → (cum off r).length = (cum I r).length := by
    intro r hr
    induction r with
    | zero => rfl
    | succ r ih => rw [cum_succ, cum_succ, List.length_append, List.length_append, ih (by omega), hoffl, if_neg (by omega)]; rfl
  have hofft : (cum off n).length = (cum I n).length + 1 := by
    obtain ⟨m, rfl⟩ : ∃ m, n = m + 1 := ⟨n - 1, by omega⟩
    rw [cum_succ, cum_succ, List.length_append, List.length_append, hoffc m (by omega), hoffl, if_pos (by omega)]; omega
  have w5 := writeDataset_spec n off ((jobs.zipIdx).map (fun (p : Job D × Nat) =>
      (p.1.vtk.cellOffset, p.1.vtk.offsets.take (p.1.rk.cells.length + if p.2 = jobs.length - 1 then 1 else 0)))) (by simp [H.len])
    ((cum I n).length + 1) hofft.symm (fun r hr => by
      obtain ⟨j, hj⟩ := hget r hr
      obtain ⟨a1, a2, a3, a4, a5, a6⟩ := H.at' r j hj
      refine ⟨(cum I r).length, ?_, Or.inl (hoffc r hr).symm⟩
      rw [List.getElem?_map, List.getElem?_zipIdx, hj]
      simp only [Option.map_some, Nat.zero_add, a2, H.len]
      rw [a1])
  refine ⟨cum off n, ?_, hofft, ?_⟩
  · unfold write
    simp only [e1, e2]
    rw [u1, Res.ok_bind, (idx_ok_iff _ _ _).2 hj0, Res.ok_bind, hv0]
    simp only
    rw [w1, Res.ok_bind, w2, Res.ok_bind, w3, Res.ok_bind, w4, Res.ok_bind, w5, Res.ok_bind, w6, Res.ok_bind, w7, Res.ok_bind, w8, Res.ok_bind,
      w9, Res.ok_bind]
  · have hval : ∀ r k, r < n → k < (off r).length → (off r)[k]? = some ((cum I n).take ((cum I r).length + k)).flatten.length := by
      intro r k hr hk
      have hk2 : k ≤ (I r).length := by rw [hoffl] at hk; split at hk <;> omega
      have hk3 := hk
      rw [hoffl] at hk3
      simp only [off]
      rw [List.getElem?_take_of_lt hk3, List.getElem?_map, runSums_get _ 0 k hk2, cum_take I hr hk2]
      simp only [Option.map_some, List.flatten_append, List.length_append]
      congr 1; omega
    intro i hi
    obtain ⟨r, k, a, b, c⟩ := cum_find off n i (by omega)
    rw [c, cum_get off a (hval r k a b), hoffc r a]

end DNDSR.VtkOut
