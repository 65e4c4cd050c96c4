import Verif.Proof.VtkOutAll
import Verif.Props.IndexMapping

/-!
# The VTKHDF file shows the mesh and the fields (C102)
-/

namespace DNDSR.VtkOut

open DNDSR.IMap DNDSR.Elem DNDSR.Bits DNDSR.Faces DNDSR.MeshAdj

/-- Preparing the output and writing a file succeeds on every mesh, periodic or not, however it is distributed over the ranks, and the file shows the
mesh and the fields: points, cells by VTK's numbering rules, data by cell and by point. -/
theorem file_shows_mesh {D : Type} (periodic : Bool) (P : Per.Periodicity) {gn : GOM} {cl nl : List Nat} {G : List Cell}
    {X : Nat → Per.V3} {ranks : List Rk} (W : OnMesh periodic gn cl nl G X ranks) {cd pd : Nat → Nat → D} {data : List (Data D)}
    (hD : DataOn cl nl cd pd data) (mRank : Nat) (hm : mRank < ranks.length) (cellNames pointNames : List String)
    (hc : cellNames.Nodup) (hp : pointNames.Nodup) :
    ∃ F L, output periodic P gn mRank cellNames pointNames ranks data = .ok F ∧
      Shows periodic P nl.sum G X cellNames pointNames cd pd F L := by
  cases periodic with
  | true =>
    obtain ⟨recs, LL, h1, h2⟩ := recreate_spec P W
    obtain ⟨v, F, h3, h4, h5⟩ := shows_of_prepared W h2 hD mRank hm cellNames pointNames hc hp
    refine ⟨F, LL.flatten, ?_, h5⟩
    rw [output, if_pos rfl, h1, Res.ok_bind, Res.ok_bind]
    show (build _ _ _).bind _ = _
    rw [h3]
    exact h4
  | false =>
    obtain ⟨LL, h2⟩ := plain_spec P W
    obtain ⟨v, F, h3, h4, h5⟩ := shows_of_prepared W h2 hD mRank hm cellNames pointNames hc hp
    refine ⟨F, LL.flatten, ?_, h5⟩
    rw [output, if_neg (by simp), Res.ok_bind]
    show (build _ _ _).bind _ = _
    rw [h3]
    exact h4

/-- the places at which a cell sees its nodes are the coordinates the file has for its points -/
theorem shown_places {D : Type} {periodic : Bool} {P : Per.Periodicity} {nN : Nat} {G : List Cell} {X : Nat → Per.V3}
    {cellNames pointNames : List String} {cd pd : Nat → Nat → D} {F : File D} {L : List (Nat × Mark)}
    (h : Shows periodic P nN G X cellNames pointNames cd pd F L) (p q : Nat) (b : Mark) (hp : L[p]? = some (q, b)) :
    F.points[p]? = some (some (Elev.forward P b (X q))) := by
  rw [h.points, List.getElem?_map, hp]; rfl

/-- Any mesh distributed in any way can be held by ranks (as long as the numbers of copies fit the 32-bit counters). -/
theorem onmesh_exists (periodic : Bool) (cl nl : List Nat) (G : List Cell) (X : Nat → Per.V3) (hl : cl.length = nl.length)
    (ht : G.length = cl.sum) (hg : ∀ c ∈ G, CellOk periodic nl c)
    (hb : (((G.map (fun c => c.nodes.length)).sum : Nat) : Int) ≤ Defines.intMax 32) :
    ∃ gn ranks, OnMesh periodic gn cl nl G X ranks := by
  obtain ⟨gn, hgn⟩ := built_exists nl
  let own : Nat → List Cell := fun r => (G.drop (before cl r)).take (cl.getD r 0)
  have hownl : ∀ r, r < nl.length → (own r).length = cl.getD r 0 := by
    intro r hr
    have hrc : r < cl.length := by omega
    have h1 := before_succ cl r hrc
    have h2 := before_le_total cl (r + 1)
    simp only [own, List.length_take, List.length_drop, List.getD_eq_getElem?_getD, List.getElem?_eq_getElem hrc, Option.getD_some]
    omega
  have hownc : ∀ r, r ≤ nl.length → cum own r = G.take (before cl r) := by
    intro r
    induction r with
    | zero => intro _; simp [cum_zero, before]
    | succ r ih =>
      intro hr
      have hrc : r < cl.length := by omega
      rw [cum_succ, ih (by omega), before_succ cl r hrc]
      simp only [own, List.getD_eq_getElem?_getD, List.getElem?_eq_getElem hrc, Option.getD_some]
      rw [List.take_add]
  have hownG : cum own nl.length = G := by
    rw [hownc _ (Nat.le_refl _), ← hl]
    have : before cl cl.length = cl.sum := by simp [before]
    rw [this, ← ht, List.take_length]
  let reqs : List (List Int) := (List.range nl.length).map (fun r => (own r).flatMap (fun c => c.nodes))
  have hmem : ∀ r, ∀ c ∈ own r, c ∈ G := fun r c hc => List.mem_of_mem_drop (List.mem_of_mem_take hc)
  obtain ⟨maps, hmaps⟩ := ghost_map_exists hgn reqs (by simp [reqs]) (by
    intro req hreq q hq
    obtain ⟨r, _, rfl⟩ := List.mem_map.1 hreq
    obtain ⟨c, hc, hqc⟩ := List.mem_flatMap.1 hq
    exact (hg c (hmem r c hc)).2.2.1 q hqc) (by
    refine le_trans (le_of_eq ?_) hb
    refine congrArg (fun n : Nat => (n : Int)) ?_
    rw [sum_take_scan _ nl.length (by simp [reqs]), scanBefore_eq (fun r => (own r).flatMap (fun c => c.nodes)) _ nl.length
      (by simp [reqs]) (fun r hr => by
        simp only [reqs]
        rw [List.getElem?_map, List.getElem?_map, List.getElem?_range hr]; rfl) _ (Nat.le_refl _)]
    have e : cum (fun r => (own r).flatMap (fun c => c.nodes)) nl.length = (cum (fun r => (own r).map (fun c => c.nodes)) nl.length).flatten := by
      rw [← cum_flatten]
      exact cum_congr (fun r _ => by rw [List.flatMap_def])
    rw [e, cum_map, hownG, List.length_flatten, List.map_map]
    rfl)
  obtain ⟨m1, m2⟩ := createPull_spec hgn reqs (by simp [reqs]) maps hmaps
  -- local names
  have hname : ∀ (r : Nat) (q : Int), ∃ v : Int, ∀ m, maps[r]? = some m → q ∈ (own r).flatMap (fun c => c.nodes) →
      0 ≤ v ∧ LocalName nl r m.ghostIndex q v := by
    intro r q
    by_cases h : r < maps.length ∧ q ∈ (own r).flatMap (fun c => c.nodes)
    · have hm := List.getElem?_eq_getElem h.1
      have hM := m2 r _ hm
      have hF := Faithful.of_pull hM
      by_cases ho : Owns nl r q
      · refine ⟨q - before nl r, fun m _ _ => ⟨?_, Or.inl ⟨ho, rfl⟩⟩⟩
        obtain ⟨_, a, _⟩ := ho; omega
      · obtain ⟨req, h1, h2⟩ := hM.req
        have : q ∈ maps[r].ghostIndex := by
          refine (h2.mem q).2 ?_
          simp only [reqs] at h1
          rw [List.getElem?_map, List.getElem?_range (by omega)] at h1
          rw [← Option.some.inj h1]; exact h.2
        obtain ⟨k, hk⟩ := List.mem_iff_getElem?.1 this
        refine ⟨maps[r].mainSize + k, fun m hm' _ => ?_⟩
        rw [hm] at hm'; cases hm'
        exact ⟨by omega, Or.inr (Or.inl ⟨ho, k, hk, _, hM.size, rfl⟩)⟩
    · exact ⟨0, fun m hm hq => absurd ⟨(List.getElem?_eq_some_iff.1 hm).1, hq⟩ h⟩
  choose nm hnm using hname
  let mk : Nat → Map → Rk := fun r m =>
    ⟨(own r).map (fun c => ⟨c.type, c.nodes.map (nm r), c.pbi⟩), m, (List.range (nl.getD r 0)).map (fun i => X (before nl r + i))⟩
  let ranks : List Rk := maps.zipIdx.map (fun p => mk p.2 p.1)
  have hrk : ∀ (r : Nat) (s : Rk), ranks[r]? = some s → ∃ m, maps[r]? = some m ∧ r < nl.length ∧ s = mk r m := by
    intro r s hs
    simp only [ranks] at hs
    rw [List.getElem?_map, List.getElem?_zipIdx] at hs
    obtain ⟨p, hp, rfl⟩ := Option.map_eq_some_iff.1 hs
    obtain ⟨m, hm, rfl⟩ := Option.map_eq_some_iff.1 hp
    exact ⟨m, hm, by have := (List.getElem?_eq_some_iff.1 hm).1; omega, by simp⟩
  refine ⟨gn, ranks, ⟨by simp [ranks, m1], hl, ht, hgn, ⟨reqs, by simp [reqs], ?_⟩, hg, ?_, ?_⟩⟩
  · rw [hmaps]
    refine congrArg Res.ok (List.ext_getElem? fun r => ?_)
    simp only [ranks]
    rw [List.getElem?_map, List.getElem?_map, List.getElem?_zipIdx]
    cases maps[r]? <;> rfl
  · intro r s hs
    obtain ⟨m, hm, hr, rfl⟩ := hrk r s hs
    have e : nl.getD r 0 = nl[r] := by rw [List.getD_eq_getElem?_getD, List.getElem?_eq_getElem hr]; rfl
    refine ⟨by simp only [mk, List.length_map, List.length_range, e]; exact List.getElem?_eq_getElem hr, fun i x hx => ?_⟩
    simp only [mk] at hx
    rw [List.getElem?_map] at hx
    obtain ⟨k, hk, rfl⟩ := Option.map_eq_some_iff.1 hx
    have := (List.getElem?_eq_some_iff.1 hk)
    obtain ⟨_, rfl⟩ := this
    simp
  · intro r s hs
    obtain ⟨m, hm, hr, rfl⟩ := hrk r s hs
    have hrc : r < cl.length := by omega
    refine ⟨?_, fun i c hi => ?_⟩
    · simp only [mk, List.length_map]
      rw [hownl r hr, List.getD_eq_getElem?_getD, List.getElem?_eq_getElem hrc]; rfl
    · simp only [mk] at hi
      rw [List.getElem?_map] at hi
      obtain ⟨C, hC, rfl⟩ := Option.map_eq_some_iff.1 hi
      have hbc : before cl r = (cum own r).length := by
        rw [hownc r (by omega), List.length_take, ht]
        have := before_le_total cl r
        omega
      refine ⟨C, by rw [hbc, ← hownG]; exact cum_get own hr hC, rfl, rfl, by simp, fun j q v hq hv => ?_⟩
      simp only at hv
      rw [List.getElem?_map, hq] at hv
      obtain rfl := Option.some.inj hv
      exact hnm r q m hm (List.mem_flatMap.2 ⟨C, List.mem_of_getElem? hC, List.mem_of_getElem? hq⟩)

/-! ### a ring of two cells on two ranks -/

/-- two segments; the second closes the ring through the first periodic direction -/
def ring : List Cell := [⟨.line2, [0, 1], [0, 0]⟩, ⟨.line2, [1, 0], [0, 1]⟩]

theorem ring_ok : ∀ c ∈ ring, CellOk true [1, 1] c := by
  intro c hc
  simp only [ring, List.mem_cons, List.not_mem_nil, or_false] at hc
  rcases hc with rfl | rfl
  · exact ⟨by decide, by decide, by simp [Global], fun _ => ⟨rfl, by decide⟩⟩
  · exact ⟨by decide, by decide, by simp [Global], fun _ => ⟨rfl, by decide⟩⟩

/-- the hypotheses of `file_shows_mesh` hold of the ring, with one cell and one node on each rank -/
theorem ring_held (X : Nat → Per.V3) : ∃ gn ranks, OnMesh true gn [1, 1] [1, 1] ring X ranks :=
  onmesh_exists true [1, 1] [1, 1] ring X rfl rfl ring_ok (by decide)

/-- its file has three points: node 0 appears a second time, carried through the periodic direction -/
theorem ring_points (P : Per.Periodicity) (X : Nat → Per.V3) : ∃ gn ranks F L,
    output true P gn 0 ["u"] ["v"] ranks [⟨fun _ _ => (7 : Nat), fun _ _ => 8⟩, ⟨fun _ _ => 9, fun _ _ => 10⟩] = .ok F ∧
    Shows true P 2 ring X ["u"] ["v"] (fun _ i => if i = 0 then 7 else 9) (fun _ i => if i = 0 then 8 else 10) F L ∧
    (0, (1 : Mark)) ∈ L ∧ (1, (1 : Mark)) ∉ L := by
  obtain ⟨gn, ranks, W⟩ := ring_held X
  obtain ⟨F, L, h1, h2⟩ := file_shows_mesh (D := Nat) true P W (cd := fun _ i => if i = 0 then 7 else 9)
    (pd := fun _ i => if i = 0 then 8 else 10) (data := [⟨fun _ _ => (7 : Nat), fun _ _ => 8⟩, ⟨fun _ _ => 9, fun _ _ => 10⟩])
    ⟨rfl, fun r d hd a i => by
      match r, hd with
      | 0, hd => cases hd; exact ⟨fun ⟨n, h, hi⟩ => by cases h; simp [before]; omega, fun ⟨n, h, hi⟩ => by cases h; simp [before]; omega⟩
      | 1, hd => cases hd; exact ⟨fun ⟨n, h, hi⟩ => by cases h; simp [before], fun ⟨n, h, hi⟩ => by cases h; simp [before]⟩
      | r + 2, hd => simp at hd⟩ 0 (by rw [W.ranks_len]; decide) ["u"] ["v"] (by simp) (by simp)
  refine ⟨gn, ranks, F, L, h1, h2, ?_, ?_⟩
  · rw [h2.exactly]
    exact ⟨by decide, Or.inr ⟨_, List.mem_cons_of_mem _ List.mem_cons_self, 1, rfl, rfl⟩⟩
  · rw [h2.exactly]
    rintro ⟨_, h | ⟨c, hc, j, hj, hm⟩⟩
    · exact absurd h (by decide)
    · simp only [ring, List.mem_cons, List.not_mem_nil, or_false] at hc
      rcases hc with rfl | rfl
      · match j, hj with
        | 0, hj => simp at hj
        | 1, _ => exact absurd hm (by decide)
        | j + 2, hj => simp at hj
      · match j, hj with
        | 0, _ => exact absurd hm (by decide)
        | 1, hj => simp at hj
        | j + 2, hj => simp at hj

/-! ### preparing twice -/

/-- a rank with one segment between its two nodes -/
def seg (off : Int) (x : Per.V3) : Rk :=
  ⟨[⟨.line2, [0, 1], []⟩], ⟨off, 2, [0, 0], [], [0, 0, 0], [0, 0], [0, 0, 0], []⟩, [x, x]⟩

/-- Calling `BuildVTKConnectivity` a second time appends the connectivity once more: the slabs of the ranks then overlap, and what the
file contains is no longer determined. -/
theorem rebuild_duplicates (x y : Per.V3) : ∃ v1 v2,
    build [Vtk.fresh, Vtk.fresh] [seg 0 x, seg 2 y] [none, none] = .ok v1 ∧
    (∃ F, write (D := Nat) 0 [] [] ((([seg 0 x, seg 2 y].zip [none, none]).zip v1).map (fun p => ⟨p.1.1, p.1.2, p.2, ⟨fun _ _ => 0, fun _ _ => 0⟩⟩))
      = .ok F) ∧
    build v1 [seg 0 x, seg 2 y] [none, none] = .ok v2 ∧
    write (D := Nat) 0 [] [] ((([seg 0 x, seg 2 y].zip [none, none]).zip v2).map (fun p => ⟨p.1.1, p.1.2, p.2, ⟨fun _ _ => 0, fun _ _ => 0⟩⟩)) = .ub :=
  ⟨_, _, rfl, ⟨_, rfl⟩, rfl, rfl⟩

end DNDSR.VtkOut
