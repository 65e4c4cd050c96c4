import Verif.Proof.VtkOutPrep

namespace DNDSR.VtkOut

open DNDSR.IMap DNDSR.Elem DNDSR.Bits DNDSR.Faces DNDSR.MeshAdj

variable {periodic : Bool} {gn : GOM} {cl nl : List Nat} {G : List Cell} {X : Nat → Per.V3} {ranks : List Rk}

/-- the table of cell types agrees with VTK's rules for every type -/
theorem vtkTable_spec (t : ElemType) (ht : t ≠ .unknown) : ∃ code ks, vtkTable t = .ok (code, ks) ∧ vtkShape code = some (paramSpace t) ∧
    vtkOrder code = order t ∧ ks.map (pt t) = vtkPlaces code ∧ ∀ k ∈ ks, (k : Int) < numNodes t := by
  cases t <;> first
    | exact absurd rfl ht
    | exact ⟨_, _, rfl, by decide +kernel, by decide +kernel, by decide +kernel, by decide +kernel⟩

theorem toVTK_spec {t : ElemType} {code : Nat} {ks : List Nat} (h : vtkTable t = .ok (code, ks)) (vin : List Int)
    (hk : ∀ k ∈ ks, k < vin.length) : toVTK t vin = .ok (code, ks.map (fun k => vin[k]?.getD 0)) := by
  rw [toVTK, h, Res.ok_bind]
  simp only
  have h1 : forRanks (fun _ k => idx vin k) 0 ks = .ok (ks.map (fun k => vin[k]?.getD 0)) := by
    refine (forRanks_ok _ _ _ _).2 ⟨by simp, fun i k hi => ⟨_, by rw [List.getElem?_map, hi]; rfl, ?_⟩⟩
    have hkl := hk k (List.mem_of_getElem? hi)
    rw [idx_ok_iff]; simp [List.getElem?_eq_getElem hkl]
  rw [h1, Res.ok_bind]

/-- what is written for a cell: its VTK type and the points in VTK's order -/
def CellIds (periodic : Bool) (L : List (Nat × Mark)) (c : Cell) (code : Nat) (ids : List Nat) : Prop :=
  vtkShape code = some (paramSpace c.type) ∧ vtkOrder code = order c.type ∧ ids.length = (vtkPlaces code).length ∧
    ∀ (k : Nat) (x : Elem.V3), (vtkPlaces code)[k]? = some x →
      ∃ (j p q : Nat), c.nodes[j]? = some (q : Int) ∧ pt c.type j = x ∧ ids[k]? = some p ∧ L[p]? = some (q, mark periodic c j)

theorem cellIds_of {L : List (Nat × Mark)} {c : Cell} (hc : CellOk periodic nl c) {code : Nat} {ks : List Nat}
    (h2 : vtkShape code = some (paramSpace c.type)) (h3 : vtkOrder code = order c.type) (h4 : ks.map (pt c.type) = vtkPlaces code)
    (h5 : ∀ k ∈ ks, (k : Int) < numNodes c.type) (f : Nat → Nat)
    (hf : ∀ (j q : Nat), j ∈ ks → c.nodes[j]? = some (q : Int) → L[f j]? = some (q, mark periodic c j)) :
    CellIds periodic L c code (ks.map f) := by
  refine ⟨h2, h3, by rw [← h4]; simp, fun k x hx => ?_⟩
  rw [← h4, List.getElem?_map] at hx
  obtain ⟨j, hj, rfl⟩ := Option.map_eq_some_iff.1 hx
  have hm := List.mem_of_getElem? hj
  have hjl : j < c.nodes.length := by have := h5 j hm; have := hc.2.1; omega
  have hgl := hc.2.2.1 _ (List.getElem_mem hjl)
  obtain ⟨q, hq⟩ := Int.eq_ofNat_of_zero_le hgl.1
  have hcn : c.nodes[j]? = some (q : Int) := by rw [List.getElem?_eq_getElem hjl, hq]
  exact ⟨j, f j, q, hcn, rfl, by rw [List.getElem?_map, hj]; rfl, hf j q hm hcn⟩

theorem connLocal_spec {P : Per.Periodicity} (W : OnMesh periodic gn cl nl G X ranks) {re : List (Option Recr)} {LL : List (List (Nat × Mark))}
    (H : Prepared periodic P cl nl G X ranks re LL) {r : Nat} {s : Rk} {R : Option Recr} (hs : ranks[r]? = some s) (hR : re[r]? = some R) :
    ∃ (types : List Nat) (rows : List (List Nat)),
      connLocal s R = .ok (types, rows.map List.length, rows.flatten.map (fun n : Nat => (n : Int))) ∧
      types.length = s.cells.length ∧ rows.length = s.cells.length ∧
      ∀ (i : Nat) (C : Cell), i < s.cells.length → G[before cl r + i]? = some C → ∃ code ids, types[i]? = some code ∧ rows[i]? = some ids ∧
        CellIds periodic LL.flatten C code ids := by
  -- cell by cell
  have hcell : ∀ (i : Nat) (c : Cell), s.cells[i]? = some c → ∃ (code : Nat) (ks : List Nat) (ids : List Nat) (C : Cell),
      G[before cl r + i]? = some C ∧ CellIds periodic LL.flatten C code ids ∧ ids.length = ks.length ∧
      toVTK c.type c.nodes = .ok (code, ks.map (fun k => c.nodes[k]?.getD 0)) ∧
      (match R with
        | none => (do
            let p ← toVTK c.type c.nodes
            forRanks (fun _ v => MeshAdj.local2Global s.map v) 0 p.2)
        | some R => (do
            let row ← at64 R.c2n (i : Int)
            let p ← toVTK c.type row
            .ok p.2)) = .ok (ids.map (fun n : Nat => (n : Int))) := by
    intro i c hi
    obtain ⟨C, hC, h1, h2, h3, h4⟩ := (W.cells r s hs).2 i c hi
    have hgood := W.good C (List.mem_of_getElem? hC)
    obtain ⟨code, ks, t1, t2, t3, t4, t5⟩ := vtkTable_spec C.type hgood.1
    have hkC : ∀ k ∈ ks, k < C.nodes.length := fun k hk => by have := t5 k hk; have := hgood.2.1; omega
    have hkc : ∀ k ∈ ks, k < c.nodes.length := fun k hk => by rw [h3]; exact hkC k hk
    have hq : ∀ k ∈ ks, ∃ q : Nat, C.nodes[k]? = some (q : Int) := fun k hk => by
      have hgl := hgood.2.2.1 _ (List.getElem_mem (hkC k hk))
      obtain ⟨q, hq⟩ := Int.eq_ofNat_of_zero_le hgl.1
      exact ⟨q, by rw [List.getElem?_eq_getElem (hkC k hk), hq]⟩
    have hvtk := toVTK_spec (t := c.type) (by rw [h1]; exact t1) c.nodes hkc
    have hrow := H.conn r s R hs hR i c C hi hC
    cases R with
    | none =>
      have hex : ∀ k, ∃ p : Nat, k ∈ ks → ∃ q : Nat, C.nodes[k]? = some (q : Int) ∧ local2Global s.map (c.nodes[k]?.getD 0) = .ok (p : Int) ∧
          LL.flatten[p]? = some (q, mark periodic C k) := by
        intro k
        by_cases hk : k ∈ ks
        · obtain ⟨q, hq⟩ := hq k hk
          obtain ⟨v, p, v1, v2, v3⟩ := hrow k q hq
          exact ⟨p, fun _ => ⟨q, hq, by rw [v1]; exact v2, v3⟩⟩
        · exact ⟨0, fun h => absurd h hk⟩
      choose f hf using hex
      refine ⟨code, ks, ks.map f, C, hC, cellIds_of hgood t2 t3 t4 t5 f (fun j q hj hjq => ?_), by simp, hvtk, ?_⟩
      · obtain ⟨q', q1, _, q3⟩ := hf j hj
        rw [hjq] at q1
        rw [q3]
        have := Option.some.inj q1
        rw [show q' = q by omega]
      · simp only
        rw [hvtk, Res.ok_bind]
        refine (forRanks_ok _ _ _ _).2 ⟨by simp, fun k v hk => ?_⟩
        rw [List.getElem?_map] at hk
        obtain ⟨j, hj, rfl⟩ := Option.map_eq_some_iff.1 hk
        obtain ⟨q', _, q2, _⟩ := hf j (List.mem_of_getElem? hj)
        exact ⟨_, by rw [List.getElem?_map, List.getElem?_map, hj]; rfl, q2⟩
    | some R =>
      obtain ⟨row, w1, w2, w3⟩ := hrow
      have hex : ∀ k, ∃ p : Nat, k ∈ ks → ∃ q : Nat, C.nodes[k]? = some (q : Int) ∧ row[k]? = some (p : Int) ∧
          LL.flatten[p]? = some (q, mark periodic C k) := by
        intro k
        by_cases hk : k ∈ ks
        · obtain ⟨q, hq⟩ := hq k hk
          obtain ⟨p, v1, v2⟩ := w3 k q hq
          exact ⟨p, fun _ => ⟨q, hq, v1, v2⟩⟩
        · exact ⟨0, fun h => absurd h hk⟩
      choose f hf using hex
      refine ⟨code, ks, ks.map f, C, hC, cellIds_of hgood t2 t3 t4 t5 f (fun j q hj hjq => ?_), by simp, hvtk, ?_⟩
      · obtain ⟨q', q1, _, q3⟩ := hf j hj
        rw [hjq] at q1
        rw [q3]
        have := Option.some.inj q1
        rw [show q' = q by omega]
      · simp only
        rw [at64_ok w1, Res.ok_bind, toVTK_spec (t := c.type) (by rw [h1]; exact t1) row (fun k hk => by rw [w2]; exact hkC k hk), Res.ok_bind,
          List.map_map]
        refine congrArg Res.ok (List.map_congr_left fun k hk => ?_)
        obtain ⟨_, _, q2, _⟩ := hf k hk
        rw [q2]; rfl
  obtain ⟨a, a1, a2, a3⟩ := N2C.forRanks_all (fun _ (c : Cell) => toVTK c.type c.nodes)
    (fun i c y => toVTK c.type c.nodes = .ok y) s.cells (fun i c hi => by
      obtain ⟨code, ks, ids, C, _, _, _, h4, _⟩ := hcell i c hi
      exact ⟨_, h4, h4⟩)
  -- the rows
  obtain ⟨rows, b1, b2⟩ : ∃ rows : List (List Nat), rows.length = s.cells.length ∧
      ∀ (i : Nat) (c : Cell), s.cells[i]? = some c → ∃ (code : Nat) (ks ids : List Nat) (C : Cell), rows[i]? = some ids ∧
      G[before cl r + i]? = some C ∧ CellIds periodic LL.flatten C code ids ∧ ids.length = ks.length ∧
      toVTK c.type c.nodes = .ok (code, ks.map (fun k => c.nodes[k]?.getD 0)) ∧
      (match R with
        | none => (do
            let p ← toVTK c.type c.nodes
            forRanks (fun _ v => MeshAdj.local2Global s.map v) 0 p.2)
        | some R => (do
            let row ← at64 R.c2n (i : Int)
            let p ← toVTK c.type row
            .ok p.2)) = .ok (ids.map (fun n : Nat => (n : Int))) := by
    have hex : ∀ (i : Nat), ∃ ids : List Nat, ∀ c, s.cells[i]? = some c → ∃ (code : Nat) (ks : List Nat) (C : Cell),
      G[before cl r + i]? = some C ∧ CellIds periodic LL.flatten C code ids ∧ ids.length = ks.length ∧
      toVTK c.type c.nodes = .ok (code, ks.map (fun k => c.nodes[k]?.getD 0)) ∧
      (match R with
        | none => (do
            let p ← toVTK c.type c.nodes
            forRanks (fun _ v => MeshAdj.local2Global s.map v) 0 p.2)
        | some R => (do
            let row ← at64 R.c2n (i : Int)
            let p ← toVTK c.type row
            .ok p.2)) = .ok (ids.map (fun n : Nat => (n : Int))) := by
      intro i
      cases hi : s.cells[i]? with
      | none => exact ⟨[], fun c h => by cases h⟩
      | some c =>
        obtain ⟨code, ks, ids, C, h⟩ := hcell i c hi
        exact ⟨ids, fun c' h' => by cases h'; exact ⟨code, ks, C, h⟩⟩
    choose F hF using hex
    refine ⟨(List.range s.cells.length).map F, by simp, fun i c hi => ?_⟩
    obtain ⟨code, ks, C, h⟩ := hF i c hi
    exact ⟨code, ks, F i, C, by rw [List.getElem?_map, List.getElem?_range (List.getElem?_eq_some_iff.1 hi).1]; rfl, h⟩
  have hb : (match R with
    | none => forRanks (fun _ (c : Cell) => do
        let p ← toVTK c.type c.nodes
        forRanks (fun _ v => MeshAdj.local2Global s.map v) 0 p.2) 0 s.cells
    | some R => forRanks (fun i (c : Cell) => do
        let row ← at64 R.c2n (i : Int)
        let p ← toVTK c.type row
        .ok p.2) 0 s.cells) = .ok (rows.map (fun l => l.map (fun n : Nat => (n : Int)))) := by
    cases R with
    | none =>
      refine (forRanks_ok _ _ _ _).2 ⟨by simpa using b1, fun i c hi => ?_⟩
      obtain ⟨code, ks, ids, C, h1, _, _, _, _, h6⟩ := b2 i c hi
      exact ⟨_, by rw [List.getElem?_map, h1]; rfl, h6⟩
    | some R =>
      refine (forRanks_ok _ _ _ _).2 ⟨by simpa using b1, fun i c hi => ?_⟩
      obtain ⟨code, ks, ids, C, h1, _, _, _, _, h6⟩ := b2 i c hi
      refine ⟨_, by rw [List.getElem?_map, h1]; rfl, ?_⟩
      rw [Nat.zero_add]; exact h6
  refine ⟨a.map (fun p => p.1), rows, ?_, by simpa using a2, b1, ?_⟩
  · unfold connLocal
    rw [a1, Res.ok_bind]
    refine (congrArg (fun z => Res.bind z _) hb).trans ?_
    show Res.ok _ = _
    refine congrArg Res.ok ?_
    refine Prod.ext rfl (Prod.ext ?_ (by simp only [List.map_flatten]))
    apply List.ext_getElem?
    intro i
    by_cases hi : i < s.cells.length
    · obtain ⟨code, ks, ids, C, h1, _, _, h4, h5, _⟩ := b2 i _ (List.getElem?_eq_getElem hi)
      have hai : i < a.length := by omega
      have h7 := a3 i _ _ (List.getElem?_eq_getElem hi) (List.getElem?_eq_getElem hai)
      rw [h5] at h7
      simp only
      rw [List.getElem?_map, List.getElem?_map, h1, List.getElem?_eq_getElem hai, ← Res.ok.inj h7]
      simp [h4]
    · rw [List.getElem?_eq_none (by simp; omega), List.getElem?_eq_none (by simp; omega)]
  · intro i C hi hC
    obtain ⟨code, ks, ids, C', h1, h2, h3, _, h5, _⟩ := b2 i _ (List.getElem?_eq_getElem hi)
    rw [hC] at h2; cases h2
    have hai : i < a.length := by omega
    have h7 := a3 i _ _ (List.getElem?_eq_getElem hi) (List.getElem?_eq_getElem hai)
    rw [h5] at h7
    refine ⟨code, ids, ?_, h1, h3⟩
    rw [List.getElem?_map, List.getElem?_eq_getElem hai, ← Res.ok.inj h7]; rfl

end DNDSR.VtkOut
