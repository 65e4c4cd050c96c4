import Verif.Proof.VtkOutFile

namespace DNDSR.VtkOut

open DNDSR.IMap DNDSR.Elem DNDSR.Bits DNDSR.Faces DNDSR.MeshAdj

variable {periodic : Bool} {gn : GOM} {cl nl : List Nat} {G : List Cell} {X : Nat → Per.V3} {ranks : List Rk}

theorem cum_range {α : Type} (I : Nat → List α) {β : Type} (f : Nat → β) (n : Nat) :
    cum (fun r => (List.range (I r).length).map (fun i => f ((cum I r).length + i))) n = (List.range (cum I n).length).map f := by
  induction n with
  | zero => rfl
  | succ n ih =>
    rw [cum_succ, ih, cum_succ, List.length_append, List.range_add, List.map_append, List.map_map]
    rfl

theorem sum_take_scan (l : List Nat) (n : Nat) (h : l.length ≤ n) : l.sum = scanBefore l n := by
  rw [scanBefore, List.take_of_length_le h]

/-- the second half: from points and rows to the file -/
theorem shows_of_prepared {D : Type} {P : Per.Periodicity} (W : OnMesh periodic gn cl nl G X ranks) {re : List (Option Recr)}
    {LL : List (List (Nat × Mark))} (H : Prepared periodic P cl nl G X ranks re LL) {cd pd : Nat → Nat → D} {data : List (Data D)}
    (hD : DataOn cl nl cd pd data) (mRank : Nat) (hm : mRank < ranks.length) (cellNames pointNames : List String)
    (h1 : cellNames.Nodup) (h2 : pointNames.Nodup) :
    ∃ v F, build (ranks.map (fun _ => Vtk.fresh)) ranks re = .ok v ∧
      write mRank cellNames pointNames ((((ranks.zip re).zip v).zip data).map (fun p => ⟨p.1.1.1, p.1.1.2, p.1.2, p.2⟩)) = .ok F ∧
      Shows periodic P nl.sum G X cellNames pointNames cd pd F LL.flatten := by
  obtain ⟨n, hn⟩ : ∃ n, n = ranks.length := ⟨_, rfl⟩
  have hex : ∀ r, ∃ (T : List Nat) (I : List (List Nat)), ∀ (s : Rk) (R : Option Recr), ranks[r]? = some s → re[r]? = some R →
      connLocal s R = .ok (T, I.map List.length, I.flatten.map (fun n : Nat => (n : Int))) ∧
      T.length = s.cells.length ∧ I.length = s.cells.length ∧
      ∀ (i : Nat) (C : Cell), i < s.cells.length → G[before cl r + i]? = some C → ∃ code ids, T[i]? = some code ∧ I[i]? = some ids ∧
        CellIds periodic LL.flatten C code ids := by
    intro r
    by_cases hr : r < ranks.length
    · obtain ⟨T, I, h⟩ := connLocal_spec W H (List.getElem?_eq_getElem hr)
        (List.getElem?_eq_getElem (show r < re.length by rw [H.len_re]; exact hr))
      refine ⟨T, I, fun s R hs hR => ?_⟩
      rw [List.getElem?_eq_getElem hr] at hs; cases hs
      rw [List.getElem?_eq_getElem (show r < re.length by rw [H.len_re]; exact hr)] at hR; cases hR
      exact h
    · exact ⟨[], [], fun s R hs => absurd (List.getElem?_eq_some_iff.1 hs).1 hr⟩
  choose T I hTI using hex
  have hsR : ∀ r, r < n → ∃ s R, ranks[r]? = some s ∧ re[r]? = some R := fun r hr =>
    ⟨_, _, List.getElem?_eq_getElem (by omega), List.getElem?_eq_getElem (by rw [H.len_re]; omega)⟩
  -- points by rank
  let Lr : Nat → List (Nat × Mark) := fun r => LL.getD r []
  have hLr : ∀ r, r < n → LL[r]? = some (Lr r) := by
    intro r hr
    have hrl : r < LL.length := by rw [H.len]; omega
    simp only [Lr]
    rw [List.getD_eq_getElem?_getD, List.getElem?_eq_getElem hrl]; rfl
  have hLL : LL.flatten = cum Lr n := by
    rw [cum]
    refine congrArg List.flatten (List.ext_getElem? fun r => ?_)
    by_cases hr : r < n
    · rw [hLr r hr, List.getElem?_map, List.getElem?_range hr]; rfl
    · rw [List.getElem?_eq_none (by rw [H.len]; omega), List.getElem?_eq_none (by simp; omega)]
  let pts : Nat → List Per.V3 := fun r => (Lr r).map (fun e => Elev.forward P e.2 (X e.1))
  have hpts : ∀ m, cum pts m = (cum Lr m).map (fun e => Elev.forward P e.2 (X e.1)) := fun m => cum_map _ _ m
  -- cells by rank
  have hcl : ∀ r, r < n → cl[r]? = some (I r).length := by
    intro r hr
    obtain ⟨s, R, hs, hR⟩ := hsR r hr
    rw [(hTI r s R hs hR).2.2.1]; exact (W.cells r s hs).1
  have hcll : cl.length = n := by rw [W.cl_len, ← W.ranks_len, hn]
  have hbef : ∀ r, r ≤ n → before cl r = (cum I r).length := fun r hr => scanBefore_eq I cl n hcll hcl r hr
  have hG : G.length = (cum I n).length := by
    rw [W.total, ← hbef n (Nat.le_refl n), sum_take_scan cl n (by omega)]; rfl
  -- what every rank computes
  let loc : List (List Nat × List Nat × List Int) :=
    (List.range n).map (fun r => (T r, (I r).map List.length, (I r).flatten.map (fun n : Nat => (n : Int))))
  have hlocr : ∀ r, r < n → loc[r]? = some (T r, (I r).map List.length, (I r).flatten.map (fun n : Nat => (n : Int))) := by
    intro r hr
    simp only [loc]
    rw [List.getElem?_map, List.getElem?_range hr]; rfl
  have hzl : (ranks.zip re).length = n := by rw [List.length_zip, H.len_re]; omega
  have hloc : forRanks (fun _ (p : Rk × Option Recr) => connLocal p.1 p.2) 0 (ranks.zip re) = .ok loc := by
    refine (forRanks_ok _ _ _ _).2 ⟨by rw [hzl]; simp [loc], fun r p hp => ?_⟩
    obtain ⟨p1, p2⟩ := List.getElem?_zip_eq_some.1 hp
    have hr : r < n := by rw [hn]; exact (List.getElem?_eq_some_iff.1 p1).1
    exact ⟨_, hlocr r hr, (hTI r _ _ p1 p2).1⟩
  have hscan1 : ∀ r, r ≤ n → scanBefore (loc.map (fun p => p.2.1.sum)) r = (cum I r).flatten.length := by
    intro r hr
    rw [← cum_flatten]
    refine scanBefore_eq (fun r => (I r).flatten) _ n (by simp [loc]) (fun r hr => ?_) r hr
    rw [List.getElem?_map, hlocr r hr]
    simp [List.length_flatten]
  have hscan2 : ∀ r, r ≤ n → scanBefore ((ranks.zip re).map (fun p => nPts p.1 p.2)) r = (cum pts r).length := by
    intro r hr
    refine scanBefore_eq pts _ n (by simp [H.len_re, hn]) (fun r hr => ?_) r hr
    obtain ⟨s, R, hs, hR⟩ := hsR r hr
    rw [List.getElem?_map, show (ranks.zip re)[r]? = some (s, R) from List.getElem?_zip_eq_some.2 ⟨hs, hR⟩, Option.map_some,
      (H.pts r s R _ hs hR (hLr r hr)).2.2, List.length_map]
  have hscan3 : ∀ r, r ≤ n → scanBefore (ranks.map (fun s => s.cells.length)) r = (cum I r).length := by
    intro r hr
    refine scanBefore_eq I _ n (by simp [hn]) (fun r hr => ?_) r hr
    obtain ⟨s, R, hs, hR⟩ := hsR r hr
    rw [List.getElem?_map, hs, Option.map_some, (hTI r s R hs hR).2.2.1]
  have hconns : (((ranks.map (fun _ => Vtk.fresh)).zip loc).map (fun p => p.1.conn ++ p.2.2.2)) =
      (List.range n).map (fun r => (I r).flatten.map (fun n : Nat => (n : Int))) := by
    apply List.ext_getElem?
    intro r
    by_cases hr : r < n
    · obtain ⟨s, R, hs, hR⟩ := hsR r hr
      rw [List.getElem?_map, show ((ranks.map (fun _ => Vtk.fresh)).zip loc)[r]? = some (Vtk.fresh, _) from
        List.getElem?_zip_eq_some.2 ⟨by rw [List.getElem?_map, hs]; rfl, hlocr r hr⟩, List.getElem?_map, List.getElem?_range hr]
      rfl
    · rw [List.getElem?_eq_none (by simp [loc]; omega), List.getElem?_eq_none (by simp; omega)]
  have hcg : ((((List.range n).map (fun r => (I r).flatten.map (fun n : Nat => (n : Int)))).map List.length)).sum = (cum I n).flatten.length := by
    rw [sum_take_scan _ n (by simp), ← cum_flatten]
    refine scanBefore_eq (fun r => (I r).flatten) _ n (by simp) (fun r hr => ?_) n (Nat.le_refl n)
    rw [List.getElem?_map, List.getElem?_map, List.getElem?_range hr]
    exact congrArg some (List.length_map _)
  let vt : Nat → Vtk := fun r =>
    { types := T r, offsets := (runSums 0 ((I r).map List.length)).map (fun o => o + (cum I r).flatten.length)
      conn := (I r).flatten.map (fun n : Nat => (n : Int)), nodeOffset := (cum pts r).length, cellOffset := (cum I r).length
      connGlobal := (cum I n).flatten.length, nCellGlobal := (cum I n).length, nNodeGlobal := (cum pts n).length }
  have hbuild : build (ranks.map (fun _ => Vtk.fresh)) ranks re = .ok ((List.range n).map vt) := by
    rw [build, hloc, Res.ok_bind]
    simp only [hconns, hcg]
    refine (forRanks_ok _ _ _ _).2 ⟨by simp [loc], fun r p hp => ⟨vt r, ?_, ?_⟩⟩
    · have hr : r < n := by
        have := (List.getElem?_eq_some_iff.1 hp).1
        simpa [loc] using this
      rw [List.getElem?_map, List.getElem?_range hr]; rfl
    · obtain ⟨p1, p2⟩ := List.getElem?_zip_eq_some.1 hp
      have hr : r < n := by
        have := (List.getElem?_eq_some_iff.1 hp).1
        simpa [loc] using this
      rw [hlocr r hr] at p1
      rw [List.getElem?_map, List.getElem?_range hr] at p2
      rw [Nat.zero_add, hscan1 r (by omega), hscan2 r (by omega), hscan3 r (by omega), sum_take_scan (ranks.map _) n (by simp [hn]),
        hscan3 n (Nat.le_refl n), sum_take_scan ((ranks.zip re).map _) n (by simp [H.len_re, hn]), hscan2 n (Nat.le_refl n),
        ← Option.some.inj p1, ← Option.some.inj p2]
  -- the file
  have hR : Ready n T I pts (fun a r => (List.range (I r).length).map (fun i => cd a ((cum I r).length + i)))
      (fun a r => (Lr r).map (fun e => pd a e.1))
      ((((ranks.zip re).zip ((List.range n).map vt)).zip data).map (fun p => (⟨p.1.1.1, p.1.1.2, p.1.2, p.2⟩ : Job D))) := by
    have hdl : data.length = n := by rw [hD.1, ← W.ranks_len, hn]
    refine ⟨by simp [H.len_re, hdl, hn], fun r hr => ?_, fun r j hj => ?_⟩
    · obtain ⟨s, R, hs, hR⟩ := hsR r hr
      rw [(hTI r s R hs hR).2.1, (hTI r s R hs hR).2.2.1]
    · rw [List.getElem?_map] at hj
      obtain ⟨⟨⟨⟨s, R⟩, v⟩, d⟩, hz, rfl⟩ := Option.map_eq_some_iff.1 hj
      obtain ⟨z1, hd⟩ := List.getElem?_zip_eq_some.1 hz
      obtain ⟨z2, hv⟩ := List.getElem?_zip_eq_some.1 z1
      obtain ⟨hs, hR⟩ := List.getElem?_zip_eq_some.1 z2
      simp only at hs hR hv hd
      have hr : r < n := by rw [hn]; exact (List.getElem?_eq_some_iff.1 hs).1
      rw [List.getElem?_map, List.getElem?_range hr] at hv
      have hv' : v = vt r := (Option.some.inj hv).symm
      obtain ⟨t1, t2, t3, _⟩ := hTI r s R hs hR
      obtain ⟨o1, o2, o3⟩ := H.pts r s R _ hs hR (hLr r hr)
      refine ⟨hv', t3.symm, by rw [o3]; simp [pts], by rw [o1, List.map_map]; rfl, fun a => ?_, fun a => ?_⟩
      · rw [← t3]
        refine List.map_congr_left fun i hi => ?_
        rw [((hD.2 r d hd a i).1 ⟨_, hcl r hr, List.mem_range.1 hi⟩), hbef r (by omega)]
      · rw [o1, List.map_map]
        refine List.map_congr_left fun e he => ?_
        obtain ⟨a1, a2, a3⟩ := o2 e he
        simp only [Function.comp]
        rw [(hD.2 r d hd a (e.1 - before nl r)).2 ⟨_, List.getElem?_eq_getElem a1, by omega⟩]
        congr 1; omega
  obtain ⟨offs, w1, w2, w3⟩ := write_spec hR mRank (by omega) (fun a r _ => by simp) (fun a r _ => by simp [pts]) cellNames pointNames h1 h2
  refine ⟨_, _, hbuild, w1, ?_⟩
  have hcd : ∀ a, cum (fun r => (List.range (I r).length).map (fun i => cd a ((cum I r).length + i))) n =
      (List.range (cum I n).length).map (cd a) := fun a => cum_range I (cd a) n
  have hpd : ∀ a, cum (fun r => (Lr r).map (fun e => pd a e.1)) n = (cum Lr n).map (fun e => pd a e.1) := fun a => cum_map _ _ n
  have hlenT : (cum T n).length = (cum I n).length := by
    have : ∀ r, r ≤ n → (cum T r).length = (cum I r).length := by
      intro r hr
      induction r with
      | zero => rfl
      | succ r ih => rw [cum_succ, cum_succ, List.length_append, List.length_append, ih (by omega), hR.types r (by omega)]
    exact this n (Nat.le_refl n)
  have hT : ∀ r k code, r < n → (T r)[k]? = some code → (cum T n)[(cum I r).length + k]? = some code := by
    intro r k code hr hk
    have : ∀ r, r ≤ n → (cum T r).length = (cum I r).length := by
      intro r hr
      induction r with
      | zero => rfl
      | succ r ih => rw [cum_succ, cum_succ, List.length_append, List.length_append, ih (by omega), hR.types r (by omega)]
    rw [← this r (by omega)]
    exact cum_get T hr hk
  refine ⟨H.once, H.exactly, ?_, ?_, ?_, ?_, ?_, ?_, ?_, ?_, ?_, ?_⟩
  · simp only [hpts, hLL, List.map_map]; rfl
  · intro i C hC
    obtain ⟨r, s, k, c, f1, f2, f3⟩ := W.find hC
    have hr : r < n := by rw [hn]; exact (List.getElem?_eq_some_iff.1 f1).1
    obtain ⟨s', R, hs, hRR⟩ := hsR r hr
    rw [f1] at hs; cases hs
    obtain ⟨_, _, t3, t4⟩ := hTI r s R f1 hRR
    obtain ⟨code, ids, c1, c2, c3, c4, c5, c6⟩ := t4 k C (List.getElem?_eq_some_iff.1 f2).1 (by rw [← f3]; exact hC)
    rw [hbef r (by omega)] at f3
    have hI : (cum I n)[i]? = some ids := by rw [f3]; exact cum_get I hr c2
    obtain ⟨hil, hI'⟩ := List.getElem?_eq_some_iff.1 hI
    refine ⟨code, ((cum I n).take i).flatten.length, ids, ?_, c3, c4, ?_, ?_, ?_, c5, c6⟩
    · simp only
      rw [List.getElem?_map, f3, hT r k code hr c1]; rfl
    · simp only
      rw [List.getElem?_map, w3 i (by omega)]; rfl
    · simp only
      rw [List.getElem?_map, w3 (i + 1) (by omega), List.take_succ, hI]
      simp
    · simp only
      have := flatten_block (cum I n) i hil
      rw [hI'] at this
      rw [List.map_map, ← List.map_drop, ← List.map_take, this]
      rfl
  · simp [hlenT, hG]
  · simp [w2, hG]
  · simp only [List.getElem?_map, List.length_map, hG]
    rw [w3 _ (Nat.le_refl _), List.take_of_length_le (Nat.le_refl _)]; rfl
  · simp only [hG]
  · simp only [hpts, hLL, List.length_map]
  · simp only [List.length_map]
  · simp only [hcd, hG, List.map_map]; rfl
  · simp only [hpd, hLL, List.map_map]; rfl

end DNDSR.VtkOut
