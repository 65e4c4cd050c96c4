import Verif.Proof.GhostRows

/-!
# One rank of `RecoverCell2CellAndBnd2Cell`
-/

namespace DNDSR.Ghost

open DNDSR.IMap DNDSR.MeshAdj DNDSR.N2C DNDSR.Faces
open DNDSR.Bits (Mark mxor mand)

theorem cellLens_eq (ps : List Piece) : (ps.map (·.cells)).map List.length = cellLens ps := by
  rw [cellLens, List.map_map]; rfl

theorem whole_at {ps : List Piece} {r : Nat} {p : Piece} (hp : ps[r]? = some p) {k : Nat} (hk : k < p.cells.length) :
    (whole ps)[before (cellLens ps) r + k]? = p.cells[k]? := by
  rw [← cellLens_eq]
  exact flatten_at (ps.map (·.cells)) r k p.cells (by rw [List.getElem?_map, hp]; rfl) hk

theorem isCell_own {ps : List Piece} {r : Nat} {p : Piece} (hp : ps[r]? = some p) {k : Nat} {C : Cell} (hC : p.cells[k]? = some C) :
    IsCell ps ((before (cellLens ps) r : Int) + k) C := by
  refine ⟨by omega, ?_⟩
  rw [show ((before (cellLens ps) r : Int) + k).toNat = before (cellLens ps) r + k by omega,
    whole_at hp (List.getElem?_eq_some_iff.1 hC).1, hC]

theorem isCell_unique {ps : List Piece} {c : Int} {C D : Cell} (h : IsCell ps c C) (h' : IsCell ps c D) : C = D := by
  have := h.2.symm.trans h'.2
  exact Option.some.inj this

theorem hasNode_iff {ps : List Piece} {c : Int} {C : Cell} (h : IsCell ps c C) (q : Int) : HasNode ps c q ↔ q ∈ C.nodes := by
  constructor
  · rintro ⟨D, h1, h2⟩; rw [isCell_unique h h1]; exact h2
  · intro hq; exact ⟨C, h, hq⟩

theorem isCell_mem {ps : List Piece} {c : Int} {C : Cell} (h : IsCell ps c C) : ∃ p ∈ ps, C ∈ p.cells := by
  have := List.mem_of_getElem? h.2
  rw [whole, List.mem_flatten] at this
  obtain ⟨l, h1, h2⟩ := this
  obtain ⟨p, hp, rfl⟩ := List.mem_map.1 h1
  exact ⟨p, hp, h2⟩

theorem isCell_global {ps : List Piece} {c : Int} {C : Cell} (h : IsCell ps c C) : Global (cellLens ps) c := by
  refine ⟨h.1, ?_⟩
  have := (List.getElem?_eq_some_iff.1 h.2).1
  rw [whole, List.length_flatten, cellLens_eq] at this
  have := h.1
  omega

theorem global_isCell {ps : List Piece} {c : Int} (h : Global (cellLens ps) c) : ∃ C, IsCell ps c C := by
  obtain ⟨h1, h2⟩ := h
  have : c.toNat < (whole ps).length := by
    rw [whole, List.length_flatten, cellLens_eq]; omega
  exact ⟨_, h1, List.getElem?_eq_getElem this⟩

/-! ### Rows of `cell2cell` -/

structure RowsOk (ps : List Piece) (r : Nat) (p : Piece) (c2c : List (List Int)) : Prop where
  len : c2c.length = p.cells.length
  sorted : ∀ row ∈ c2c, row.Pairwise (· < ·)
  exact_ : ∀ (k : Nat) (row : List Int), c2c[k]? = some row → ∀ c, c ∈ row ↔ c ≠ (before (cellLens ps) r : Int) + k ∧
    ∃ q, HasNode ps ((before (cellLens ps) r : Int) + k) q ∧ HasNode ps c q

theorem neighbours_spec {ps : List Piece} {tbl : List Int} {rows all : List (List Int)} (h : TblOk tbl rows all) (hL : Lists ps all)
    {self : Int} {C : Cell} (hC : IsCell ps self C) (hne : C.nodes ≠ []) (hq : ∀ q ∈ C.nodes, q ∈ tbl) :
    ∃ row, neighbours tbl rows (.ok self) C.nodes = .ok row ∧ row.Pairwise (· < ·) ∧
      ∀ c, c ∈ row ↔ c ≠ self ∧ ∃ q, HasNode ps self q ∧ HasNode ps c q := by
  obtain ⟨t, e, ht, hc⟩ := gather_spec h hL C.nodes [] List.Pairwise.nil hq
  have hmem : self ∈ t := by
    obtain ⟨q, hq'⟩ := List.exists_mem_of_ne_nil _ hne
    exact (hc self).2 (Or.inr ⟨q, hq', C, hC, hq'⟩)
  refine ⟨t.erase self, ?_, ht.sublist List.erase_sublist, ?_⟩
  · rw [neighbours, e, Res.ok_bind, Res.ok_bind, Res.assert_true _ hmem, Res.ok_bind]
  · intro c
    rw [(nodup_of_sorted ht).mem_erase_iff, hc]
    simp only [List.not_mem_nil, false_or, hasNode_iff hC]

/-! ### Entries of `bnd2cell` -/

/-- before the two cells of a periodic boundary element are put in order -/
def Pre (per : Bool) (ps : List Piece) (b : Bnd) (x : Int × Int) : Prop :=
  if per = true ∧ isPeriodicId b.zone = true then x.1 < x.2 ∧ ∀ c, Covers ps c b ↔ c = x.1 ∨ c = x.2
  else x.2 = Faces.unInit ∧ ∀ c, Covers ps c b ↔ c = x.1

theorem sorted_one {t : List Int} (ht : t.Pairwise (· < ·)) {a : Int} (h : ∀ c, c ∈ t ↔ c = a) : t = [a] := by
  match t, ht with
  | [], _ => exact absurd ((h a).2 rfl) (by simp)
  | [x], _ => rw [(h x).1 (by simp)]
  | x :: y :: l, ht =>
    have h1 := (h x).1 (by simp)
    have h2 := (h y).1 (by simp)
    have := (List.pairwise_cons.1 ht).1 y (by simp)
    omega

theorem sorted_two {t : List Int} (ht : t.Pairwise (· < ·)) {a b : Int} (hab : a < b) (h : ∀ c, c ∈ t ↔ c = a ∨ c = b) : t = [a, b] := by
  match t, ht with
  | [], _ => exact absurd ((h a).2 (Or.inl rfl)) (by simp)
  | [x], _ =>
    have h1 := List.mem_singleton.1 ((h a).2 (Or.inl rfl))
    have h2 := List.mem_singleton.1 ((h b).2 (Or.inr rfl))
    omega
  | [x, y], ht =>
    have h1 := (h x).1 (by simp)
    have h2 := (h y).1 (by simp)
    have := (List.pairwise_cons.1 ht).1 y (by simp)
    have e1 : x = a := by omega
    have e2 : y = b := by omega
    rw [e1, e2]
  | x :: y :: z :: l, ht =>
    have h1 := (h x).1 (by simp)
    have h2 := (h y).1 (by simp)
    have h3 := (h z).1 (by simp)
    have a1 := (List.pairwise_cons.1 ht).1 y (by simp)
    have a2 := (List.pairwise_cons.1 (List.pairwise_cons.1 ht).2).1 z (by simp)
    omega

theorem bndCells_iff {ps : List Piece} {b : Bnd} {t : List Int} (ht : t.Pairwise (· < ·)) (hc : ∀ c, c ∈ t ↔ Covers ps c b) (per : Bool)
    (x : Int × Int) : bndCells per b.zone t = .ok x ↔ Pre per ps b x := by
  simp only [Pre, ← hc]
  by_cases hz : per = true ∧ isPeriodicId b.zone = true
  · rw [if_pos hz]
    unfold bndCells
    rw [if_pos (by simp [hz.1, hz.2])]
    constructor
    · intro h
      match t, ht, h with
      | [u, v], ht, h =>
        have := Res.ok.inj h
        subst this
        exact ⟨(List.pairwise_cons.1 ht).1 v (by simp), by simp⟩
    · rintro ⟨h1, h2⟩
      rw [sorted_two ht h1 h2]
  · rw [if_neg hz]
    unfold bndCells
    rw [if_neg (by simpa using hz)]
    constructor
    · intro h
      match t, h with
      | [u], h =>
        have := Res.ok.inj h
        subst this
        exact ⟨rfl, by simp⟩
    · rintro ⟨h1, h2⟩
      rw [sorted_one ht h2, ← h1]

theorem pre_of_bndOk {per : Bool} {ps : List Piece} {b : Bnd} {y : Int × Int} (h : BndOk per ps b y) : ∃ x, Pre per ps b x := by
  unfold BndOk at h
  unfold Pre
  by_cases hz : per = true ∧ isPeriodicId b.zone = true
  · rw [if_pos hz] at h
    obtain ⟨h1, h2, -⟩ := h
    by_cases hlt : y.1 < y.2
    · exact ⟨y, by rw [if_pos hz]; exact ⟨hlt, h2⟩⟩
    · refine ⟨(y.2, y.1), ?_⟩
      rw [if_pos hz]
      refine ⟨by simp only; omega, fun c => (h2 c).trans ⟨Or.symm, Or.symm⟩⟩
  · rw [if_neg hz] at h
    exact ⟨y, by rw [if_neg hz]; exact h⟩

/-! ### The side of a periodic boundary element -/

theorem bitsAt_spec (q : Int) : ∀ (nodes : List Int) (pbi : List Mark), pbi.length = nodes.length →
    ∃ bs, bitsAt q nodes pbi = .ok bs ∧ (q ∈ nodes → bs ≠ []) ∧ ∀ v, v ∈ bs ↔ (q, v) ∈ nodes.zip pbi
  | [], pbi, _ => ⟨[], rfl, by simp, by simp⟩
  | n :: ns, [], h => by simp at h
  | n :: ns, b :: bs, h => by
      obtain ⟨r, e, h1, h2⟩ := bitsAt_spec q ns bs (by simpa using h)
      by_cases hn : n = q
      · refine ⟨b :: r, by simp only [bitsAt, if_pos hn, e, Res.ok_bind], by simp, ?_⟩
        intro v
        simp only [List.mem_cons, h2, List.zip_cons_cons, Prod.mk.injEq, hn, true_and]
      · refine ⟨r, by simp only [bitsAt, if_neg hn, List.tail_cons, e], ?_, ?_⟩
        · intro hq
          rcases List.mem_cons.1 hq with h | h
          · exact absurd h.symm hn
          · exact h1 h
        · intro v
          rw [h2, List.zip_cons_cons, List.mem_cons, Prod.mk.injEq]
          constructor
          · exact Or.inr
          · rintro (⟨h, _⟩ | h)
            · exact absurd h.symm hn
            · exact h

theorem sideBits_spec {C : Cell} (hp : C.pbi.length = C.nodes.length) : ∀ (qs : List Int), (∀ q ∈ qs, q ∈ C.nodes) →
    ∃ bs, sideBits C qs = .ok bs ∧ ∀ v, v ∈ bs ↔ ∃ q ∈ qs, (q, v) ∈ C.nodes.zip C.pbi
  | [], _ => ⟨[], rfl, by simp⟩
  | q :: qs, h => by
      obtain ⟨b1, e1, n1, m1⟩ := bitsAt_spec q C.nodes C.pbi hp
      obtain ⟨b2, e2, m2⟩ := sideBits_spec hp qs (fun x hx => h x (List.mem_cons_of_mem _ hx))
      refine ⟨b1 ++ b2, ?_, ?_⟩
      · rw [sideBits, e1, Res.ok_bind, Res.assert_true _ (n1 (h q (List.mem_cons_self ..))), Res.ok_bind, e2, Res.ok_bind]
      · intro v
        simp only [List.mem_append, m1, m2, List.mem_cons, exists_eq_or_imp]

theorem bits_table : ∀ (zone : Fin 6) (v : Mark), (mxor (clean (-1 - (zone.val : Int)) v)
    (match bndBit (-1 - (zone.val : Int)) with | .ok x => x | _ => 255#8) = 0#8 ↔
    v &&& dirBit (-1 - (zone.val : Int)) = if isDonor (-1 - (zone.val : Int)) then dirBit (-1 - (zone.val : Int)) else 0#8) ∧
    (bndBit (-1 - (zone.val : Int)) ≠ .abort ∧ bndBit (-1 - (zone.val : Int)) ≠ .ub) := by
  decide +kernel

theorem bit_spec {zone : Int} (hz : isPeriodicId zone = true) : ∃ bit, bndBit zone = .ok bit ∧
    ∀ v, mxor (clean zone v) bit = 0#8 ↔ v &&& dirBit zone = if isDonor zone then dirBit zone else 0#8 := by
  have hz' : zone = -1 ∨ zone = -2 ∨ zone = -3 ∨ zone = -4 ∨ zone = -5 ∨ zone = -6 := by simpa [isPeriodicId] using hz
  have : ∃ k : Fin 6, zone = -1 - (k.val : Int) := ⟨⟨(-1 - zone).toNat, by omega⟩, by simp only; omega⟩
  obtain ⟨k, rfl⟩ := this
  have h := bits_table k
  match hb : bndBit (-1 - (k.val : Int)) with
  | .ok bit =>
    refine ⟨bit, rfl, fun v => ?_⟩
    have := (h v).1
    rw [hb] at this
    exact this
  | .abort => exact absurd hb (h 0#8).2.1
  | .ub => exact absurd hb (h 0#8).2.2

theorem fits_iff {C : Cell} {b : Bnd} {bit : Mark} {bs : List Mark}
    (hbit : ∀ v, mxor (clean b.zone v) bit = 0#8 ↔ v &&& dirBit b.zone = if isDonor b.zone then dirBit b.zone else 0#8)
    (hbs : ∀ v, v ∈ bs ↔ ∃ q ∈ b.nodes, (q, v) ∈ C.nodes.zip C.pbi) : fitsBit b.zone bit bs = true ↔ OnSide C b := by
  unfold fitsBit OnSide
  rw [List.all_eq_true]
  simp only [decide_eq_true_eq, hbit]
  constructor
  · intro h q v hq hv
    exact h v ((hbs v).2 ⟨q, hq, hv⟩)
  · intro h v hv
    obtain ⟨q, hq, hv⟩ := (hbs v).1 hv
    exact h q v hq hv

theorem orient_iff {ps : List Piece} (hP : PartsOk true ps) {r : Nat} {p : Piece} (hp : ps[r]? = some p) {m : Map}
    (hm : Faithful (cellLens ps) r m) {son : List Cell} (hl : son.length = m.ghostIndex.length)
    (hs : ∀ (k : Nat) (q : Int), m.ghostIndex[k]? = some q → son[k]? = (whole ps)[q.toNat]?) {b : Bnd} (hb : b ∈ p.bnds) {x : Int × Int}
    (hx : Pre true ps b x) (hneed : x.2 ≠ Faces.unInit → (Owns (cellLens ps) r x.1 ∨ x.1 ∈ m.ghostIndex) ∧ (Owns (cellLens ps) r x.2 ∨ x.2 ∈ m.ghostIndex))
    (y : Int × Int) : orient m (p.cells ++ son) b x = .ok y ↔ BndOk true ps b y := by
  have hbn := (hP.bnds p (List.mem_of_getElem? hp) b hb).1
  unfold Pre at hx
  unfold BndOk
  by_cases hz : isPeriodicId b.zone = true
  · rw [if_pos ⟨rfl, hz⟩] at hx
    obtain ⟨hlt, hcov⟩ := hx
    rw [if_pos ⟨rfl, hz⟩]
    have hcell : ∀ c, Covers ps c b → ∃ C, IsCell ps c C ∧ (∀ q ∈ b.nodes, q ∈ C.nodes) ∧ C.pbi.length = C.nodes.length := by
      intro c hc
      obtain ⟨q, hq⟩ := List.exists_mem_of_ne_nil _ hbn
      obtain ⟨C, hC, _⟩ := hc q hq
      obtain ⟨p', hp', hCp⟩ := isCell_mem hC
      exact ⟨C, hC, fun q hq => (hasNode_iff hC q).1 (hc q hq), hP.pbi rfl p' hp' C hCp⟩
    obtain ⟨C0, hC0, hn0, hl0⟩ := hcell x.1 ((hcov _).2 (Or.inl rfl))
    obtain ⟨C1, hC1, hn1, hl1⟩ := hcell x.2 ((hcov _).2 (Or.inr rfl))
    have hu : x.2 ≠ Faces.unInit := by
      have := hC1.1
      have : Faces.unInit < 0 := by decide
      omega
    obtain ⟨g0, g1⟩ := hneed hu
    have hrow : ∀ c C, IsCell ps c C → (Owns (cellLens ps) r c ∨ c ∈ m.ghostIndex) → ∃ v, mustFind m c = .ok v ∧ at64 (p.cells ++ son) v = .ok C := by
      intro c C hC hg
      rcases hm.mustFind_eq c with ⟨v, e, hv, hn, _⟩ | ⟨h1, h2, _⟩
      · refine ⟨v, e, ?_⟩
        have := held_row (rows := ps.map (fun x : Piece => x.cells)) (own := p.cells) (son := son) (m := m) (r := r) (by rw [cellLens_eq]; exact hm) (by rw [List.getElem?_map, hp]; rfl) hl hs hC.1 hv
          (by rw [cellLens_eq]; exact hn)
        rw [at64, if_pos hv]
        exact (idx_ok_iff _ _ _).2 (this.trans hC.2)
      · rcases hg with h | h
        · exact absurd h h1
        · exact absurd h h2
    obtain ⟨v0, a0, b0⟩ := hrow x.1 C0 hC0 g0
    obtain ⟨v1, a1, b1⟩ := hrow x.2 C1 hC1 g1
    obtain ⟨s0, c0, d0⟩ := sideBits_spec hl0 b.nodes hn0
    obtain ⟨s1, c1, d1⟩ := sideBits_spec hl1 b.nodes hn1
    obtain ⟨bit, hbit, hbv⟩ := bit_spec hz
    have f0 := fits_iff hbv d0
    have f1 := fits_iff hbv d1
    rw [orient, if_neg hu, a0, Res.ok_bind, a1, Res.ok_bind, b0, Res.ok_bind, b1, Res.ok_bind, c0, Res.ok_bind, c1, Res.ok_bind,
      hbit, Res.ok_bind]
    -- the only candidates
    have hcand : (∀ c, Covers ps c b ↔ c = y.1 ∨ c = y.2) → y.1 ≠ y.2 → y = x ∨ y = (x.2, x.1) := by
      intro h hne
      have e1 := (hcov y.1).1 ((h _).2 (Or.inl rfl))
      have e2 := (hcov y.2).1 ((h _).2 (Or.inr rfl))
      rcases e1 with e1 | e1 <;> rcases e2 with e2 | e2
      · omega
      · exact Or.inl (Prod.ext e1 e2)
      · exact Or.inr (Prod.ext e1 e2)
      · omega
    by_cases k0 : OnSide C0 b <;> by_cases k1 : OnSide C1 b
    · rw [f0.2 k0, f1.2 k1]
      simp only [Bool.not_true, Bool.and_false, Bool.false_eq_true, if_false]
      constructor
      · intro h; cases h
      · rintro ⟨h1, h2, D0, D1, h3, h4, h5, h6⟩
        rcases hcand h2 h1 with rfl | rfl
        · exact absurd k1 (isCell_unique hC1 h4 ▸ h6)
        · exact absurd k0 (isCell_unique hC0 h4 ▸ h6)
    · have k1' : fitsBit b.zone bit s1 = false := by rw [← Bool.not_eq_true, f1]; exact k1
      rw [f0.2 k0, k1']
      simp only [Bool.not_false, Bool.and_true, if_true]
      constructor
      · intro h
        cases Res.ok.inj h
        exact ⟨by omega, hcov, C0, C1, hC0, hC1, k0, k1⟩
      · rintro ⟨h1, h2, D0, D1, h3, h4, h5, h6⟩
        rcases hcand h2 h1 with rfl | rfl
        · rfl
        · exact absurd (isCell_unique hC0 h4 ▸ k0) h6
    · have k0' : fitsBit b.zone bit s0 = false := by rw [← Bool.not_eq_true, f0]; exact k0
      rw [f1.2 k1, k0']
      simp only [Bool.not_false, Bool.not_true, Bool.and_true, Bool.false_eq_true, if_false, if_true]
      constructor
      · intro h
        cases Res.ok.inj h
        exact ⟨by simp only; omega, fun c => (hcov c).trans ⟨Or.symm, Or.symm⟩, C1, C0, hC1, hC0, k1, k0⟩
      · rintro ⟨h1, h2, D0, D1, h3, h4, h5, h6⟩
        rcases hcand h2 h1 with rfl | rfl
        · exact absurd (isCell_unique hC1 h4 ▸ k1) h6
        · rfl
    · have k0' : fitsBit b.zone bit s0 = false := by rw [← Bool.not_eq_true, f0]; exact k0
      have k1' : fitsBit b.zone bit s1 = false := by rw [← Bool.not_eq_true, f1]; exact k1
      rw [k0', k1']
      simp only [Bool.false_and, Bool.false_eq_true, if_false]
      constructor
      · intro h; cases h
      · rintro ⟨h1, h2, D0, D1, h3, h4, h5, h6⟩
        rcases hcand h2 h1 with rfl | rfl
        · exact absurd (isCell_unique hC0 h3 ▸ h5) k0
        · exact absurd (isCell_unique hC1 h3 ▸ h5) k1
  · have hz' : ¬ ((true : Bool) = true ∧ isPeriodicId b.zone = true) := fun h => hz h.2
    rw [if_neg hz'] at hx
    rw [if_neg hz', orient, if_pos hx.1]
    constructor
    · intro h
      cases Res.ok.inj h
      exact hx
    · rintro ⟨h1, h2⟩
      have : x.1 = y.1 := (h2 _).1 ((hx.2 _).2 rfl)
      rw [Prod.ext this (hx.1.trans h1.symm)]

/-! ### One rank -/

theorem rank_stage (per : Bool) {ps : List Piece} {n2c : List (List (List Int))} {gc gm : GOM} (hP : PartsOk per ps) (hN : N2COk ps n2c)
    (hgc : Built (cellLens ps) gc) (hgm : Built (n2c.map List.length) gm) {r : Nat} {p : Piece} {own : List (List Int)} {m : Map}
    (hp : ps[r]? = some p) (ho : n2c[r]? = some own) (hm : Faithful (n2c.map List.length) r m)
    (hreq : ∀ q, ((∃ C ∈ p.cells, q ∈ C.nodes) ∨ ∃ b ∈ p.bnds, q ∈ b.nodes) → ¬ Owns (nodeLens ps) r q → q ∈ m.ghostIndex) :
    ∃ c2c, RowsOk ps r p c2c ∧ ∀ a : Adj, ((do
      let son ← forRanks (fun _ q => fetch gm n2c q) 0 m.ghostIndex
      let rows := own ++ son
      let tbl ← nodeTable m rows.length
      let c2c ← forRanks (fun i (c : Cell) => neighbours tbl rows (local2GlobalNoSon gc r p.cells.length i) c.nodes) 0 p.cells
      let b2c ← forRanks (fun _ (b : Bnd) => do
        let s ← common tbl rows none b.nodes
        bndCells per b.zone s) 0 p.bnds
      Res.ok (⟨c2c, b2c⟩ : Adj)) = .ok a) ↔ a.c2c = c2c ∧ a.b2c.length = p.bnds.length ∧
        ∀ (k : Nat) (b : Bnd) (x : Int × Int), p.bnds[k]? = some b → a.b2c[k]? = some x → Pre per ps b x := by
  obtain ⟨son, e1, l1, s1⟩ := fetch_all hgm m.ghostIndex hm.loc.range
  obtain ⟨tbl, e2, ht, hmem⟩ := table_ok hm ho l1 s1
  have hL : Lists ps n2c.flatten := hN.row
  have hmp := List.mem_of_getElem? hp
  have hin : ∀ q, ((∃ C ∈ p.cells, q ∈ C.nodes) ∨ ∃ b ∈ p.bnds, q ∈ b.nodes) → q ∈ tbl := by
    intro q hq
    rw [hmem, hN.len]
    by_cases ho : Owns (nodeLens ps) r q
    · exact Or.inl ho
    · exact Or.inr (hreq q hq ho)
  have hlen : (cellLens ps)[r]? = some p.cells.length := by rw [cellLens, List.getElem?_map, hp]; rfl
  obtain ⟨c2c, e3, l3, s3⟩ := N2C.forRanks_all
    (fun i (c : Cell) => neighbours tbl (own ++ son) (local2GlobalNoSon gc r p.cells.length i) c.nodes)
    (fun i _ row => row.Pairwise (· < ·) ∧ ∀ c, c ∈ row ↔ c ≠ (before (cellLens ps) r : Int) + i ∧
      ∃ q, HasNode ps ((before (cellLens ps) r : Int) + i) q ∧ HasNode ps c q) p.cells (by
      intro i C hC
      have hi := (List.getElem?_eq_some_iff.1 hC).1
      rw [toGlobal_eq hgc hlen i hi]
      have hm' := List.mem_of_getElem? hC
      exact neighbours_spec ht hL (isCell_own hp hC) (hP.cells p hmp C hm').1 (fun q hq => hin q (Or.inl ⟨C, hm', hq⟩)))
  refine ⟨c2c, ⟨l3, ?_, ?_⟩, ?_⟩
  · intro row hrow
    obtain ⟨k, hk⟩ := List.mem_iff_getElem?.1 hrow
    have hk' : k < p.cells.length := by rw [← l3]; exact (List.getElem?_eq_some_iff.1 hk).1
    exact (s3 k _ row (List.getElem?_eq_getElem hk') hk).1
  · intro k row hk
    have hk' : k < p.cells.length := by rw [← l3]; exact (List.getElem?_eq_some_iff.1 hk).1
    exact (s3 k _ row (List.getElem?_eq_getElem hk') hk).2
  · intro a
    rw [e1, Res.ok_bind]
    simp only [e2, Res.ok_bind, e3]
    have hb : ∀ b ∈ p.bnds, ∀ x, (do
        let s ← common tbl (own ++ son) none b.nodes
        bndCells per b.zone s) = .ok x ↔ Pre per ps b x := by
      intro b hb x
      obtain ⟨t, e, h1, h2⟩ := common_spec ht hL b (hP.bnds p hmp b hb).1 (fun q hq => hin q (Or.inr ⟨b, hb, hq⟩))
      rw [e, Res.ok_bind]
      exact bndCells_iff h1 h2 per x
    constructor
    · intro h
      obtain ⟨b2c, h1, h2⟩ := (Res.bind_ok_iff _ _ _).1 h
      cases Res.ok.inj h2
      obtain ⟨l4, s4⟩ := (forRanks_ok _ _ _ _).1 h1
      refine ⟨rfl, l4, ?_⟩
      intro k b x hk hx
      obtain ⟨y, y1, y2⟩ := s4 k b hk
      have : x = y := Option.some.inj (hx.symm.trans y1)
      subst this
      exact (hb b (List.mem_of_getElem? hk) _).1 y2
    · rintro ⟨rfl, l4, s4⟩
      refine (Res.bind_ok_iff _ _ _).2 ⟨a.b2c, (forRanks_ok _ _ _ _).2 ⟨l4, ?_⟩, rfl⟩
      intro k b hk
      have hk' : k < a.b2c.length := by rw [l4]; exact (List.getElem?_eq_some_iff.1 hk).1
      exact ⟨_, List.getElem?_eq_getElem hk', (hb b (List.mem_of_getElem? hk) _).2 (s4 k b _ hk (List.getElem?_eq_getElem hk'))⟩

end DNDSR.Ghost
