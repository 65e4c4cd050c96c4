import Verif.Proof.ElevNumber

/-!
# The numbers of the new nodes over all ranks
-/

namespace DNDSR.Elev

open DNDSR.IMap DNDSR.MeshAdj DNDSR.Ghost
open DNDSR.Faces hiding rename St search
open DNDSR.Reorder hiding rename
open DNDSR.Elem hiding V3
open DNDSR.Bits (Mark)
open DNDSR.Per (V3 Periodicity)

/-- a rank: its part of the mesh, what it has, what it found and the list of its new nodes -/
structure Rk where
  p : Piece
  y : RankO1
  a : Adj
  x : Held
  c : List (List Choice)
  L : List (Nat × Nat)

structure RkOk (per : Bool) (P : Periodicity) (ps : List Piece) (X : Int → V3) (r : Nat) (d : Rk) : Prop where
  has : Has per ps r d.p d.y.st d.a d.x
  found : Found per P ps X r d.p d.x.c2c d.c
  numbers : Numbers 0 d.c d.L
  main : d.y.st.nodeMap.mainSize = d.p.nNodes
  size : d.p.nNodes ≤ d.y.coords.length
  coords : ∀ q v : Int, 0 ≤ q → 0 ≤ v → LocalName (nodeLens ps) r d.y.st.nodeMap.ghostIndex q v → d.y.coords[v.toNat]? = some (X q)
  zones : d.y.zones = d.p.bnds.map (·.zone)

/-- the own nodes of a rank in the new mesh -/
def Rk.own (d : Rk) : List V3 := ownCoords d.y d.c

/-- a number of a new node made global -/
def glob (b n : Nat) (v : Int) : Int := if v < 0 then v else b + (v + n)

/-- the numbers in the rows of rank `r` -/
def Rk.rows (lens : List Nat) (r : Nat) (d : Rk) : List (List Int) := (numberRows 0 d.c).map (·.map (glob (before lens r) d.p.nNodes))

/-- the ranks -/
structure All (per : Bool) (P : Periodicity) (ps : List Piece) (X : Int → V3) (D : List Rk) : Prop where
  parts : D.map (·.p) = ps
  ok : ∀ (r : Nat) (d : Rk), D[r]? = some d → RkOk per P ps X r d

/-- numbers of nodes of each rank in the new mesh -/
def lens2 (D : List Rk) : List Nat := (D.map Rk.own).map List.length

variable {per : Bool} {P : Periodicity} {ps : List Piece} {X : Int → V3} {D : List Rk}

theorem All.piece (h : All per P ps X D) {r : Nat} {d : Rk} (hd : D[r]? = some d) : ps[r]? = some d.p := (h.ok r d hd).has.piece

theorem All.length (h : All per P ps X D) : D.length = ps.length := by rw [← h.parts, List.length_map]

theorem All.rank (h : All per P ps X D) {r : Nat} {p : Piece} (hp : ps[r]? = some p) : ∃ d, D[r]? = some d ∧ d.p = p := by
  rw [← h.parts, List.getElem?_map] at hp
  exact Option.map_eq_some_iff.1 hp

theorem RkOk.ownLen {r : Nat} {d : Rk} (h : RkOk per P ps X r d) : d.own.length = d.p.nNodes + (newCoords d.c).length := by
  have h1 := h.size
  have h2 := h.main
  simp only [Rk.own, ownCoords, List.length_append, List.length_take]
  omega

theorem lens2_at {r : Nat} {d : Rk} (hd : D[r]? = some d) : (lens2 D)[r]? = some d.own.length := by
  rw [lens2, List.getElem?_map, List.getElem?_map, hd]; rfl

/-- the nodes of the first kind: own nodes of order one -/
theorem owns2 {r : Nat} {d : Rk} (hd : D[r]? = some d) {m : Nat} (hm : m < d.own.length) : Owns (lens2 D) r ((before (lens2 D) r : Int) + m) := by
  obtain ⟨h1, h2⟩ := List.getElem?_eq_some_iff.1 (lens2_at hd)
  exact ⟨h1, by omega, by rw [h2]; omega⟩

theorem at2 {r : Nat} {d : Rk} (hd : D[r]? = some d) {m : Nat} (hm : m < d.own.length) :
    (D.map Rk.own).flatten[before (lens2 D) r + m]? = d.own[m]? :=
  flatten_at (D.map Rk.own) r m d.own (by rw [List.getElem?_map, hd]; rfl) hm

/-- every cell is on a rank -/
theorem All.cell (h : All per P ps X D) {i : Nat} {C : Cell} (hC : (whole ps)[i]? = some C) :
    ∃ r d l, D[r]? = some d ∧ d.p.cells[l]? = some C ∧ i = before (cellLens ps) r + l ∧ Owns (cellLens ps) r i := by
  have hIC : IsCell ps (i : Int) C := ⟨by omega, by simpa using hC⟩
  have hg := isCell_global hIC
  obtain ⟨r, hr⟩ := owns_exists (lens := cellLens ps) hg.1 hg.2
  have hlt : r < ps.length := by simpa [cellLens] using hr.1
  obtain ⟨d, hd, hp⟩ := h.rank (List.getElem?_eq_getElem hlt)
  have hps := h.piece hd
  have h3 := hr.2.2
  have hcl : (cellLens ps)[r]'hr.1 = d.p.cells.length := by
    have := lens_of hps
    rw [List.getElem?_eq_getElem hr.1] at this
    exact Option.some.inj this
  rw [hcl] at h3
  have h2 := hr.2.1
  refine ⟨r, d, i - before (cellLens ps) r, hd, ?_, by omega, hr⟩
  rw [← whole_at hps (by omega), show before (cellLens ps) r + (i - before (cellLens ps) r) = i by omega]
  exact hC

/-- rows of all cells -/
structure RowsOf (D : List Rk) (rows : List (List (List Int))) : Prop where
  len : rows.length = D.length
  at_ : ∀ (r : Nat) (d : Rk), D[r]? = some d → rows[r]? = some (d.rows (lens2 D) r)

variable {rows : List (List (List Int))}

theorem RkOk.rowsLen {r : Nat} {d : Rk} (h : RkOk per P ps X r d) (lens : List Nat) : (d.rows lens r).length = d.p.cells.length := by
  rw [Rk.rows, List.length_map, h.numbers.rows, h.found.len]

theorem RowsOf.lens (h : All per P ps X D) (hr : RowsOf D rows) : rows.map List.length = cellLens ps := by
  refine List.ext_getElem? fun r => ?_
  by_cases hlt : r < D.length
  · have hd := List.getElem?_eq_getElem hlt
    rw [List.getElem?_map, hr.at_ r _ hd, lens_of (h.piece hd), Option.map_some, (h.ok r _ hd).rowsLen]
  · have h1 := hr.len
    have h2 := h.length
    rw [List.getElem?_eq_none (by simp; omega), List.getElem?_eq_none (by simp [cellLens]; omega)]

theorem RowsOf.flat (h : All per P ps X D) (hr : RowsOf D rows) {r : Nat} {d : Rk} (hd : D[r]? = some d) {l : Nat} (hl : l < d.p.cells.length) :
    rows.flatten[before (cellLens ps) r + l]? = (d.rows (lens2 D) r)[l]? := by
  have := flatten_at rows r l _ (hr.at_ r d hd) (by rw [(h.ok r d hd).rowsLen]; exact hl)
  rwa [hr.lens h] at this

/-- one row of an own cell -/
theorem RkOk.row {r : Nat} {d : Rk} (h : RkOk per P ps X r d) (lens : List Nat) {l : Nat} {C : Cell} (hC : d.p.cells[l]? = some C) :
    ∃ row gs, (d.rows lens r)[l]? = some row ∧ row.length = (numElev C.type).toNat ∧ d.x.c2c[l]? = some gs ∧
      ∀ k, k < (numElev C.type).toNat → (First ps (before (cellLens ps) r + l) k C → ∃ m : Nat, d.L[m]? = some (l, k)) ∧
        (¬ First ps (before (cellLens ps) r + l) k C → ∃ (n m k' : Nat) (E : Cell), row[k]? = some (-1 - (n : Int)) ∧ gs[n]? = some (m : Int) ∧
          First ps m k' E ∧ (spanOf E k').Perm (spanOf C k)) := by
  have hl : l < d.c.length := by rw [h.found.len]; exact (List.getElem?_eq_some_iff.1 hC).1
  have hcs := List.getElem?_eq_getElem hl
  generalize d.c[l] = cs at hcs
  obtain ⟨f1, gs, f2, f3⟩ := h.found.row l C cs hC hcs
  obtain ⟨row, n1, n2, n3⟩ := h.numbers.row l cs hcs
  refine ⟨_, gs, by rw [Rk.rows, List.getElem?_map, n1]; rfl, by rw [List.length_map, n2, f1], f2, ?_⟩
  intro k hk
  have hc := List.getElem?_eq_getElem (l := cs) (i := k) (by omega)
  generalize cs[k]'(by omega) = c at hc
  have hch := f3 k c hc
  obtain ⟨g1, g2⟩ := n3 k c hc
  refine ⟨fun hf => g2 (hch.own.2 hf), fun hf => ?_⟩
  have hown : c.own = false := by
    cases ho : c.own with
    | false => rfl
    | true => exact absurd (hch.own.1 ho) hf
  obtain ⟨n, m, k', E, e1, e2, e3, e4⟩ := hch.other hown
  refine ⟨n, m, k', E, ?_, e2, e3, e4⟩
  rw [List.getElem?_map, g1 hown, e1, Option.map_some, glob, if_pos (by omega)]

/-- one new node made by a rank -/
theorem RkOk.tag (h : All per P ps X D) {r : Nat} {d : Rk} (hd : D[r]? = some d) {m l k : Nat} (ht : d.L[m]? = some (l, k)) :
    ∃ row C, (d.rows (lens2 D) r)[l]? = some row ∧ row[k]? = some ((before (lens2 D) r : Int) + (d.p.nNodes + m : Nat)) ∧ d.p.cells[l]? = some C ∧
      First ps (before (cellLens ps) r + l) k C ∧ d.p.nNodes + m < d.own.length ∧
      (D.map Rk.own).flatten[before (lens2 D) r + (d.p.nNodes + m)]? = some (nodePoint per P X C k) := by
  have hok := h.ok r d hd
  obtain ⟨cs, c, row, t1, t2, t3, t4, t5, t6⟩ := hok.numbers.tag m l k ht
  have hl : l < d.p.cells.length := by rw [← hok.found.len]; exact (List.getElem?_eq_some_iff.1 t1).1
  have hC := List.getElem?_eq_getElem hl
  generalize d.p.cells[l] = C at hC
  obtain ⟨f1, gs, f2, f3⟩ := hok.found.row l C cs hC t1
  have hch := f3 k c t2
  have hm : m < (newCoords d.c).length := (List.getElem?_eq_some_iff.1 t6).1
  have hlen := hok.ownLen
  refine ⟨_, C, by rw [Rk.rows, List.getElem?_map, t4]; rfl, ?_, hC, hch.own.1 t3, by omega, ?_⟩
  · rw [List.getElem?_map, t5, Option.map_some, glob, if_neg (by omega)]
    congr 1; push_cast; omega
  · rw [at2 hd (by omega), Rk.own, ownCoords, List.getElem?_append_right (by rw [List.length_take, hok.main]; omega), List.length_take, hok.main,
      Nat.min_eq_left hok.size, Nat.add_sub_cancel_left, t6, hch.at_]

/-- what the rows of all cells say -/
structure Named (per : Bool) (P : Periodicity) (ps : List Piece) (X : Int → V3) (D : List Rk) (R : List (List Int)) : Prop where
  size : R.length = (whole ps).length
  row : ∀ (i : Nat) (C : Cell) row, (whole ps)[i]? = some C → R[i]? = some row → row.length = (numElev C.type).toNat
  first : ∀ (i k : Nat) (C : Cell), First ps i k C → ∃ row q r d, R[i]? = some row ∧ row[k]? = some q ∧ D[r]? = some d ∧ Owns (lens2 D) r q ∧
    Owns (cellLens ps) r i ∧ (before (lens2 D) r : Int) + d.p.nNodes ≤ q ∧ (D.map Rk.own).flatten[q.toNat]? = some (nodePoint per P X C k)
  neg : ∀ (i k : Nat) (C : Cell) row q, IsNew ps i k C → ¬ First ps i k C → R[i]? = some row → row[k]? = some q → q < 0
  inj : ∀ (i k i' k' : Nat) (C C' : Cell) row row' q, First ps i k C → First ps i' k' C' → R[i]? = some row → R[i']? = some row' →
    row[k]? = some q → row'[k']? = some q → i = i' ∧ k = k'
  all : ∀ (r : Nat) (d : Rk) (q : Int), D[r]? = some d → Owns (lens2 D) r q → (before (lens2 D) r : Int) + d.p.nNodes ≤ q →
    ∃ (i k : Nat) (C : Cell) (row : List Int), First ps i k C ∧ R[i]? = some row ∧ row[k]? = some q

theorem named (h : All per P ps X D) (hr : RowsOf D rows) : Named per P ps X D rows.flatten := by
  -- every first node is on a list
  have key : ∀ (i k : Nat) (C : Cell), First ps i k C → ∃ r d l m row, D[r]? = some d ∧ i = before (cellLens ps) r + l ∧ d.L[m]? = some (l, k) ∧
      rows.flatten[i]? = some row ∧ row[k]? = some ((before (lens2 D) r : Int) + (d.p.nNodes + m : Nat)) ∧ d.p.nNodes + m < d.own.length ∧
      Owns (cellLens ps) r i ∧ (D.map Rk.own).flatten[before (lens2 D) r + (d.p.nNodes + m)]? = some (nodePoint per P X C k) := by
    intro i k C hf
    obtain ⟨r, d, l, hd, hC, e, ho⟩ := h.cell hf.1.1
    obtain ⟨row, gs, r1, r2, r3, r4⟩ := (h.ok r d hd).row (lens2 D) hC
    obtain ⟨m, hm⟩ := (r4 k hf.1.2).1 (e ▸ hf)
    obtain ⟨row', C', t1, t2, t3, t4, t5, t6⟩ := RkOk.tag h hd hm
    rw [hC] at t3; cases t3
    refine ⟨r, d, l, m, row', hd, e, hm, ?_, t2, t5, ho, t6⟩
    rw [e, hr.flat h hd (List.getElem?_eq_some_iff.1 hC).1, t1]
  refine ⟨?_, ?_, ?_, ?_, ?_, ?_⟩
  · rw [List.length_flatten, hr.lens h, whole_length]
  · intro i C row hC hR
    obtain ⟨r, d, l, hd, hC', e, _⟩ := h.cell hC
    obtain ⟨row', gs, r1, r2, _⟩ := (h.ok r d hd).row (lens2 D) hC'
    rw [e, hr.flat h hd (List.getElem?_eq_some_iff.1 hC').1, r1] at hR
    cases hR
    exact r2
  · intro i k C hf
    obtain ⟨r, d, l, m, row, k1, k2, k3, k4, k5, k6, k7, k8⟩ := key i k C hf
    refine ⟨row, _, r, d, k4, k5, k1, owns2 k1 k6, k7, by push_cast; omega, ?_⟩
    rw [show ((before (lens2 D) r : Int) + (d.p.nNodes + m : Nat)).toNat = before (lens2 D) r + (d.p.nNodes + m) by omega]
    exact k8
  · intro i k C row q hn hf hR hq
    obtain ⟨r, d, l, hd, hC', e, _⟩ := h.cell hn.1
    obtain ⟨row', gs, r1, r2, r3, r4⟩ := (h.ok r d hd).row (lens2 D) hC'
    rw [e, hr.flat h hd (List.getElem?_eq_some_iff.1 hC').1, r1] at hR
    cases hR
    obtain ⟨n, _, _, _, e1, _⟩ := (r4 k hn.2).2 (e ▸ hf)
    rw [e1] at hq
    cases hq
    omega
  · intro i k i' k' C C' row row' q hf hf' hR hR' hq hq'
    obtain ⟨r, d, l, m, rw1, k1, k2, k3, k4, k5, k6, k7, k8⟩ := key i k C hf
    obtain ⟨r', d', l', m', rw2, j1, j2, j3, j4, j5, j6, j7, j8⟩ := key i' k' C' hf'
    rw [hR] at k4; cases k4
    rw [hR'] at j4; cases j4
    rw [hq] at k5
    rw [hq'] at j5
    have e1 := Option.some.inj k5
    have e2 := Option.some.inj j5
    have o1 := owns2 k1 k6
    have o2 := owns2 j1 j6
    rw [← e1] at o1
    rw [← e2] at o2
    have := owns_unique o1 o2
    subst this
    rw [k1] at j1; cases j1
    have hm : m = m' := by push_cast at e1 e2; omega
    subst hm
    rw [k3] at j3
    cases j3
    exact ⟨by omega, rfl⟩
  · intro r d q hd ho hq
    have hok := h.ok r d hd
    have hlen := hok.ownLen
    have h3 := ho.2.2
    obtain ⟨_, e⟩ := List.getElem?_eq_some_iff.1 (lens2_at hd)
    rw [e] at h3
    have hlt : (q - before (lens2 D) r - d.p.nNodes).toNat < d.L.length := by rw [hok.numbers.len]; omega
    obtain ⟨⟨l, k⟩, ht⟩ : ∃ t, d.L[(q - before (lens2 D) r - d.p.nNodes).toNat]? = some t := ⟨_, List.getElem?_eq_getElem hlt⟩
    obtain ⟨row, C, t1, t2, t3, t4, t5, t6⟩ := RkOk.tag h hd ht
    refine ⟨_, k, C, row, t4, ?_, ?_⟩
    · rw [hr.flat h hd (List.getElem?_eq_some_iff.1 t3).1, t1]
    · rw [t2]; congr 1; push_cast; omega

/-! ### the number of a new node and of an old one -/

/-- `q` is the number of new node `k` of cell `i` -/
def IsNum (ps : List Piece) (R : List (List Int)) (i k : Nat) (q : Int) : Prop :=
  ∃ C i' k' C' row, IsNew ps i k C ∧ First ps i' k' C' ∧ (spanOf C' k').Perm (spanOf C k) ∧ R[i']? = some row ∧ row[k']? = some q

open Classical in
/-- the number of new node `k` of cell `i` -/
noncomputable def number (ps : List Piece) (R : List (List Int)) (i k : Nat) : Int := if h : ∃ q, IsNum ps R i k q then h.choose else 0

open Classical in
/-- the new number of an old node -/
noncomputable def renum (ps : List Piece) (D : List Rk) (q : Int) : Int :=
  if h : ∃ r, Owns (nodeLens ps) r q then before (lens2 D) h.choose + (q - before (nodeLens ps) h.choose) else q

theorem renum_eq {r : Nat} {q : Int} (h : Owns (nodeLens ps) r q) : renum ps D q = before (lens2 D) r + (q - before (nodeLens ps) r) := by
  have hx : ∃ r, Owns (nodeLens ps) r q := ⟨r, h⟩
  rw [renum, dif_pos hx, owns_unique hx.choose_spec h]

variable {R : List (List Int)}

theorem number_eq (hE : Elevatable per P ps X) (hN : Named per P ps X D R) {i k i' k' : Nat} {C C' : Cell} (h : IsNew ps i k C) (h' : First ps i' k' C')
    (hp : (spanOf C' k').Perm (spanOf C k)) {row : List Int} {q : Int} (hR : R[i']? = some row) (hq : row[k']? = some q) : number ps R i k = q := by
  have hx : ∃ q, IsNum ps R i k q := ⟨q, C, i', k', C', row, h, h', hp, hR, hq⟩
  rw [number, dif_pos hx]
  obtain ⟨C1, j, n, E, row1, h1, h2, h3, h4, h5⟩ := hx.choose_spec
  have := h.unique h1
  subst this
  obtain ⟨e1, e2⟩ := first_unique hE h' h2 (h3.trans hp.symm)
  subst e1 e2
  rw [hR] at h4; cases h4
  rw [hq] at h5
  exact (Option.some.inj h5).symm

theorem number_spec (hE : Elevatable per P ps X) (hN : Named per P ps X D R) {i k : Nat} {C : Cell} (h : IsNew ps i k C) :
    ∃ i' k' C' row r d, First ps i' k' C' ∧ (spanOf C' k').Perm (spanOf C k) ∧ R[i']? = some row ∧ row[k']? = some (number ps R i k) ∧
      D[r]? = some d ∧ Owns (lens2 D) r (number ps R i k) ∧ Owns (cellLens ps) r i' ∧ (before (lens2 D) r : Int) + d.p.nNodes ≤ number ps R i k ∧
      (D.map Rk.own).flatten[(number ps R i k).toNat]? = some (nodePoint per P X C k) := by
  obtain ⟨i', k', C', h1, h2, _⟩ := exists_first hE h
  obtain ⟨row, q, r, d, f1, f2, f3, f4, f5, f6, f7⟩ := hN.first i' k' C' h1
  have e := number_eq hE hN h h1 h2 f1 f2
  rw [e]
  refine ⟨i', k', C', row, r, d, h1, h2, f1, f2, f3, f4, f5, f6, ?_⟩
  rw [f7, hE.same_point h h1.1 h2]

theorem number_iff (hE : Elevatable per P ps X) (hN : Named per P ps X D R) {i k i' k' : Nat} {C C' : Cell} (h : IsNew ps i k C) (h' : IsNew ps i' k' C') :
    number ps R i k = number ps R i' k' ↔ (spanOf C' k').Perm (spanOf C k) := by
  obtain ⟨j, n, E, row, _, _, f1, f2, f3, f4, -⟩ := number_spec hE hN h
  constructor
  · intro e
    obtain ⟨j', n', E', row', _, _, g1, g2, g3, g4, -⟩ := number_spec hE hN h'
    rw [← e] at g4
    obtain ⟨e1, e2⟩ := hN.inj j n j' n' E E' row row' _ f1 g1 f3 g3 f4 g4
    subst e1 e2
    have := f1.1.unique g1.1
    subst this
    exact g2.symm.trans f2
  · intro hp
    exact (number_eq hE hN h' f1 (f2.trans hp.symm) f3 f4).symm

end DNDSR.Elev
