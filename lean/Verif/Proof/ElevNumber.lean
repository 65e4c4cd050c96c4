import Verif.Proof.ElevChoose

/-!
# The numbers of the new nodes on one rank
-/

namespace DNDSR.Elev

open DNDSR.IMap DNDSR.MeshAdj DNDSR.Ghost
open DNDSR.Faces hiding rename St search
open DNDSR.Reorder hiding rename
open DNDSR.Elem hiding V3
open DNDSR.Bits (Mark)
open DNDSR.Per (V3 Periodicity)

theorem numberRow_spec : ∀ (cs : List Choice) (n : Nat), ∃ L : List Nat, L.length = (cs.filter (·.own)).length ∧
    (numberRow n cs).2 = n + L.length ∧ (numberRow n cs).1.length = cs.length ∧
    (∀ k c, cs[k]? = some c → (c.own = false → (numberRow n cs).1[k]? = some (-1 - c.arg)) ∧ (c.own = true → ∃ m : Nat, L[m]? = some k)) ∧
    (∀ (m : Nat) k, L[m]? = some k → ∃ c, cs[k]? = some c ∧ c.own = true ∧ (numberRow n cs).1[k]? = some ((n + m : Nat) : Int) ∧
      (cs.filter (·.own))[m]? = some c)
  | [], n => ⟨[], by simp [numberRow]⟩
  | d :: cs, n => by
      by_cases hd : d.own = true
      · obtain ⟨L, h1, h2, h3, h4, h5⟩ := numberRow_spec cs (n + 1)
        refine ⟨0 :: L.map (· + 1), by simp [hd, h1], ?_, ?_, ?_, ?_⟩
        · rw [numberRow, if_pos hd]; simp [h2]; omega
        · rw [numberRow, if_pos hd]; simp [h3]
        · intro k c hc
          rw [numberRow, if_pos hd]
          cases k with
          | zero =>
            cases hc
            exact ⟨fun h => by simp [hd] at h, fun _ => ⟨0, rfl⟩⟩
          | succ k =>
            rw [List.getElem?_cons_succ] at hc
            obtain ⟨g1, g2⟩ := h4 k c hc
            refine ⟨fun h => by rw [List.getElem?_cons_succ]; exact g1 h, fun h => ?_⟩
            obtain ⟨m, hm⟩ := g2 h
            exact ⟨m + 1, by rw [List.getElem?_cons_succ, List.getElem?_map, hm]; rfl⟩
        · intro m k hm
          rw [numberRow, if_pos hd]
          cases m with
          | zero =>
            cases hm
            exact ⟨d, rfl, hd, by simp, by simp [hd]⟩
          | succ m =>
            rw [List.getElem?_cons_succ, List.getElem?_map] at hm
            obtain ⟨j, hj, rfl⟩ := Option.map_eq_some_iff.1 hm
            obtain ⟨c, g1, g2, g3, g4⟩ := h5 m j hj
            refine ⟨c, by rw [List.getElem?_cons_succ]; exact g1, g2, ?_, ?_⟩
            · rw [List.getElem?_cons_succ, g3]; congr 2; omega
            · rw [List.filter_cons_of_pos hd, List.getElem?_cons_succ]; exact g4
      · obtain ⟨L, h1, h2, h3, h4, h5⟩ := numberRow_spec cs n
        refine ⟨L.map (· + 1), by simp [hd, h1], ?_, ?_, ?_, ?_⟩
        · rw [numberRow, if_neg hd]; simp [h2]
        · rw [numberRow, if_neg hd]; simp [h3]
        · intro k c hc
          rw [numberRow, if_neg hd]
          cases k with
          | zero =>
            cases hc
            exact ⟨fun h => rfl, fun h => absurd h hd⟩
          | succ k =>
            rw [List.getElem?_cons_succ] at hc
            obtain ⟨g1, g2⟩ := h4 k c hc
            refine ⟨fun h => by rw [List.getElem?_cons_succ]; exact g1 h, fun h => ?_⟩
            obtain ⟨m, hm⟩ := g2 h
            exact ⟨m, by rw [List.getElem?_map, hm]; rfl⟩
        · intro m k hm
          rw [numberRow, if_neg hd]
          rw [List.getElem?_map] at hm
          obtain ⟨j, hj, rfl⟩ := Option.map_eq_some_iff.1 hm
          obtain ⟨c, g1, g2, g3, g4⟩ := h5 m j hj
          refine ⟨c, by rw [List.getElem?_cons_succ]; exact g1, g2, ?_, ?_⟩
          · rw [List.getElem?_cons_succ, g3]
          · rw [List.filter_cons_of_neg hd]; exact g4

/-- what the numbers of a rank are: `L` lists its new nodes as (cell, node of the cell) -/
structure Numbers (n : Nat) (css : List (List Choice)) (L : List (Nat × Nat)) : Prop where
  len : L.length = (newCoords css).length
  rows : (numberRows n css).length = css.length
  row : ∀ (l : Nat) cs, css[l]? = some cs → ∃ row, (numberRows n css)[l]? = some row ∧ row.length = cs.length ∧
    ∀ (k : Nat) c, cs[k]? = some c → (c.own = false → row[k]? = some (-1 - c.arg)) ∧ (c.own = true → ∃ m : Nat, L[m]? = some (l, k))
  tag : ∀ (m l k : Nat), L[m]? = some (l, k) → ∃ cs c row, css[l]? = some cs ∧ cs[k]? = some c ∧ c.own = true ∧ (numberRows n css)[l]? = some row ∧
    row[k]? = some ((n + m : Nat) : Int) ∧ (newCoords css)[m]? = some c.at_

theorem numbers_exist : ∀ (css : List (List Choice)) (n : Nat), ∃ L, Numbers n css L
  | [], n => ⟨[], by simp [newCoords], by simp [numberRows], by simp, by simp⟩
  | cs :: rest, n => by
      obtain ⟨L, h1, h2, h3, h4, h5⟩ := numberRow_spec cs n
      obtain ⟨K, k1, k2, k3, k4⟩ := numbers_exist rest (numberRow n cs).2
      have hnc : newCoords (cs :: rest) = (cs.filter (·.own)).map (·.at_) ++ newCoords rest := by simp [newCoords]
      have hnr : numberRows n (cs :: rest) = (numberRow n cs).1 :: numberRows (numberRow n cs).2 rest := rfl
      refine ⟨L.map (fun k => (0, k)) ++ K.map (fun t => (t.1 + 1, t.2)), ?_, by simp [hnr, k2], ?_, ?_⟩
      · simp [hnc, h1, k1]
      · intro l ds hl
        rw [hnr]
        cases l with
        | zero =>
          cases hl
          refine ⟨_, rfl, h3, ?_⟩
          intro k c hc
          obtain ⟨g1, g2⟩ := h4 k c hc
          refine ⟨g1, fun h => ?_⟩
          obtain ⟨m, hm⟩ := g2 h
          exact ⟨m, by rw [List.getElem?_append_left (by simpa using (List.getElem?_eq_some_iff.1 hm).1), List.getElem?_map, hm]; rfl⟩
        | succ l =>
          rw [List.getElem?_cons_succ] at hl
          obtain ⟨row, g1, g2, g3⟩ := k3 l ds hl
          refine ⟨row, by rw [List.getElem?_cons_succ]; exact g1, g2, ?_⟩
          intro k c hc
          obtain ⟨g1, g2⟩ := g3 k c hc
          refine ⟨g1, fun h => ?_⟩
          obtain ⟨m, hm⟩ := g2 h
          refine ⟨L.length + m, ?_⟩
          rw [List.getElem?_append_right (by simp), List.length_map, Nat.add_sub_cancel_left, List.getElem?_map, hm]; rfl
      · intro m l k hm
        rw [hnr, hnc]
        by_cases hlt : m < L.length
        · rw [List.getElem?_append_left (by simpa using hlt), List.getElem?_map] at hm
          obtain ⟨j, hj, e⟩ := Option.map_eq_some_iff.1 hm
          cases e
          obtain ⟨c, g1, g2, g3, g4⟩ := h5 m k hj
          exact ⟨cs, c, _, rfl, g1, g2, rfl, g3,
            by rw [List.getElem?_append_left (by simpa [← h1] using hlt), List.getElem?_map, g4]; rfl⟩
        · rw [List.getElem?_append_right (by simpa using hlt), List.length_map, List.getElem?_map] at hm
          obtain ⟨⟨l', k'⟩, hj, e⟩ := Option.map_eq_some_iff.1 hm
          cases e
          obtain ⟨ds, c, row, g1, g2, g3, g4, g5, g6⟩ := k4 _ _ _ hj
          refine ⟨ds, c, row, by rw [List.getElem?_cons_succ]; exact g1, g2, g3, by rw [List.getElem?_cons_succ]; exact g4, ?_, ?_⟩
          · rw [g5, h2]; congr 2; omega
          · rw [List.getElem?_append_right (by simp [← h1]; omega), List.length_map, ← h1]; exact g6

variable {per : Bool} {P : Periodicity} {ps : List Piece} {X : Int → V3}
variable {r : Nat} {p : Piece} {a : Adj} {x : Held}

/-- what a rank found for its own cells, whose neighbours are `gss` -/
structure Found (per : Bool) (P : Periodicity) (ps : List Piece) (X : Int → V3) (r : Nat) (p : Piece) (gss : List (List Int)) (css : List (List Choice)) :
    Prop where
  len : css.length = p.cells.length
  row : ∀ (l : Nat) (C : Cell) (cs : List Choice), p.cells[l]? = some C → css[l]? = some cs → cs.length = (numElev C.type).toNat ∧
    ∃ gs, gss[l]? = some gs ∧ ∀ (k : Nat) (c : Choice), cs[k]? = some c → ChoiceOk per P ps X (before (cellLens ps) r + l) k C gs c

/-- the position a rank has for a node of a cell it holds -/
theorem coords_at {y : RankO1} (h : Has per ps r p y.st a x) (hM : MeshOk per ps)
    (hc : ∀ q v : Int, 0 ≤ q → 0 ≤ v → LocalName (nodeLens ps) r y.st.nodeMap.ghostIndex q v → y.coords[v.toNat]? = some (X q)) {c : Int} {C : Cell}
    (hC : IsCell ps c C) (hk : Keeps ps r x c) : ∀ q ∈ C.nodes, at64 y.coords (nameOf y.st.nodeMap q) = .ok (X q) := by
  intro q hq
  obtain ⟨v, _, e2, _⟩ := keeps_name h (isCell_global hC) hk
  obtain ⟨h0, h1, h2, _⟩ := (keeps_cell h hM hC hk e2).2.2 q hq
  have := hc q _ h0 h1 h2
  rw [at64, if_pos h1]
  exact (idx_ok_iff _ _ _).2 this

theorem chooseAll_spec (hE : Elevatable per P ps X) {y : RankO1} (h : Has per ps r p y.st a x)
    (hc : ∀ q v : Int, 0 ≤ q → 0 ≤ v → LocalName (nodeLens ps) r y.st.nodeMap.ghostIndex q v → y.coords[v.toNat]? = some (X q)) :
    ∃ css, chooseAll per P y = .ok css ∧ Found per P ps X r p x.c2c css := by
  have hn : y.st.nCell = p.cells.length := h.nCell
  obtain ⟨css, e1, e2, e3⟩ := N2C.forRanks_all (fun i (_ : Unit) => do
      let e ← idx y.st.info i
      let ns ← idx y.st.prim.cell2node i
      let c2c ← idx y.st.prim.cell2cell i
      let self ← y.st.cellMap.apply (-1) i
      let xs ← cellCoords per P y.coords ns e.2
      forRanks (fun k _ => choose per P y.st i self e ns c2c xs k) 0 (List.replicate (numElev e.1).toNat ()))
    (fun l _ cs => ∀ C, p.cells[l]? = some C → cs.length = (numElev C.type).toNat ∧
      ∃ gs, x.c2c[l]? = some gs ∧ ∀ (k : Nat) (c : Choice), cs[k]? = some c → ChoiceOk per P ps X (before (cellLens ps) r + l) k C gs c)
    (List.replicate y.st.nCell ()) (by
      intro l _ hl
      have hlt : l < p.cells.length := by rw [← hn]; simpa using (List.getElem?_eq_some_iff.1 hl).1
      have hC : p.cells[l]? = some p.cells[l] := List.getElem?_eq_getElem hlt
      generalize p.cells[l] = C at hC
      have hIC := isCell_own h.piece hC
      have hoi := owns_of_index h.piece hlt
      have hmem : C ∈ whole ps := mem_whole (List.mem_of_getElem? h.piece) (List.mem_of_getElem? hC)
      have hnm : LocalName (cellLens ps) r y.st.cellMap.ghostIndex ((before (cellLens ps) r : Int) + l) l := Or.inl ⟨hoi, by omega⟩
      obtain ⟨f1, f2, f3⟩ := keeps_cell h hE.mesh hIC (Or.inl hoi) hnm
      have f4 : y.st.cellMap.apply (-1) l = .ok ((before (cellLens ps) r : Int) + l) := by
        have hF := h.held.cellMap.faithful
        rw [h.cmap] at hnm ⊢
        exact hF.apply_of_name hnm (by omega) (by omega)
      obtain ⟨gs, g1, g2, _, g4, g5⟩ := own_names h hC
      have hcoord := coords_at h hE.mesh hc hIC (Or.inl hoi)
      have f5 := cellCoords_spec hE hmem hcoord
      obtain ⟨cs, c1, c2, c3⟩ := N2C.forRanks_all (fun k (_ : Unit) => choose per P y.st l ((before (cellLens ps) r : Int) + l) (C.type, C.pbi)
          (C.nodes.map (nameOf y.st.nodeMap)) (gs.map (nameOf y.st.cellMap)) ((List.range (numNodes C.type).toNat).map (seen per P X C)) k)
        (fun k _ c => ChoiceOk per P ps X (before (cellLens ps) r + l) k C gs c) (List.replicate (numElev C.type).toNat ()) (by
          intro k _ hk
          exact choose_spec hE h hC (by simpa using (List.getElem?_eq_some_iff.1 hk).1) g4 g5)
      refine ⟨cs, ?_, ?_⟩
      · simp only [(idx_ok_iff _ _ _).2 f1, (idx_ok_iff _ _ _).2 f2, (idx_ok_iff _ _ _).2 g2, Res.ok_bind, f4, f5]
        exact c1
      · intro C' hC'
        rw [hC] at hC'
        cases hC'
        refine ⟨by simpa using c2, gs, g1, ?_⟩
        intro k c hk
        exact c3 k () c (by rw [List.getElem?_replicate, if_pos (by simpa [c2] using (List.getElem?_eq_some_iff.1 hk).1)]) hk)
  refine ⟨css, e1, by simpa [hn] using e2, ?_⟩
  intro l C cs hC hl
  exact e3 l () cs (by rw [List.getElem?_replicate, if_pos (by simpa [e2] using (List.getElem?_eq_some_iff.1 hl).1)]) hl C hC

end DNDSR.Elev
