import Verif.Spec.GhostPrimary
import Verif.Proof.FacesExchange
import Verif.Proof.Node2CellRun

/-!
# Rows of the whole mesh, sets of cells
-/

namespace DNDSR.Ghost

open DNDSR.IMap DNDSR.MeshAdj DNDSR.N2C DNDSR.Faces

/-! ### Concatenation over the ranks -/

theorem flatten_at {α : Type} : ∀ (rows : List (List α)) (r k : Nat) (own : List α), rows[r]? = some own → k < own.length →
    rows.flatten[before (rows.map List.length) r + k]? = own[k]?
  | [], r, k, own, h, _ => by simp at h
  | x :: xs, 0, k, own, h, hk => by
      cases h
      simp only [before, List.take_zero, List.sum_nil, Nat.zero_add, List.flatten_cons]
      exact List.getElem?_append_left hk
  | x :: xs, r + 1, k, own, h, hk => by
      have ih := flatten_at xs r k own (by simpa using h) hk
      simp only [before, List.map_cons, List.take_succ_cons, List.sum_cons, List.flatten_cons] at *
      rw [List.getElem?_append_right (by omega), ← ih]
      congr 1; omega

theorem owns_flatten {α : Type} {rows : List (List α)} {r : Nat} {q : Int} (h : Owns (rows.map List.length) r q) :
    ∃ own, rows[r]? = some own ∧ (q - before (rows.map List.length) r).toNat < own.length ∧
      rows.flatten[q.toNat]? = own[(q - before (rows.map List.length) r).toNat]? := by
  obtain ⟨h1, h2, h3⟩ := h
  have hr : r < rows.length := by simpa using h1
  simp only [List.getElem_map] at h3
  refine ⟨rows[r], List.getElem?_eq_getElem hr, by omega, ?_⟩
  rw [← flatten_at rows r _ _ (List.getElem?_eq_getElem hr) (by omega)]
  congr 1; omega

theorem fetch_flatten {α : Type} {rows : List (List α)} {g : GOM} (hg : Built (rows.map List.length) g) {q : Int} (hq : 0 ≤ q) {y : α}
    (hy : rows.flatten[q.toNat]? = some y) : fetch g rows q = .ok y := by
  have hlt : q.toNat < rows.flatten.length := (List.getElem?_eq_some_iff.1 hy).1
  rw [List.length_flatten] at hlt
  obtain ⟨r, hr⟩ := owns_exists hq (lens := rows.map List.length) (by omega)
  obtain ⟨own, h1, h2, h3⟩ := owns_flatten hr
  exact fetch_eq hg hr h1 (by rw [← h3]; exact hy)

/-- the rows pulled for the ghosts -/
theorem fetch_all {α : Type} {rows : List (List α)} {g : GOM} (hg : Built (rows.map List.length) g) (qs : List Int)
    (h : ∀ q ∈ qs, 0 ≤ q ∧ q < (rows.map List.length).sum) :
    ∃ son, forRanks (fun _ q => fetch g rows q) 0 qs = .ok son ∧ son.length = qs.length ∧
      ∀ (k : Nat) (q : Int), qs[k]? = some q → son[k]? = rows.flatten[q.toNat]? := by
  obtain ⟨son, e, l, hs⟩ := N2C.forRanks_all (fun _ q => fetch g rows q) (fun _ q y => rows.flatten[q.toNat]? = some y) qs (by
    intro k q hq
    obtain ⟨h0, h1⟩ := h q (List.mem_of_getElem? hq)
    have : q.toNat < rows.flatten.length := by rw [List.length_flatten]; omega
    exact ⟨_, fetch_flatten hg h0 (List.getElem?_eq_getElem this), List.getElem?_eq_getElem this⟩)
  refine ⟨son, e, l, ?_⟩
  intro k q hq
  have hk : k < son.length := by rw [l]; exact (List.getElem?_eq_some_iff.1 hq).1
  rw [List.getElem?_eq_getElem hk, hs k q _ hq (List.getElem?_eq_getElem hk)]

/-- own rows and pulled rows under their local names -/
theorem held_row {α : Type} {rows : List (List α)} {r : Nat} {m : Map} (hm : Faithful (rows.map List.length) r m) {own son : List α}
    (ho : rows[r]? = some own) (hl : son.length = m.ghostIndex.length)
    (hs : ∀ (k : Nat) (q : Int), m.ghostIndex[k]? = some q → son[k]? = rows.flatten[q.toNat]?) {q v : Int} (hq : 0 ≤ q)
    (hv : 0 ≤ v) (hn : LocalName (rows.map List.length) r m.ghostIndex q v) :
    (own ++ son)[v.toNat]? = rows.flatten[q.toNat]? := by
  have hsz : own.length = m.mainSize := by
    have := hm.size
    rw [List.getElem?_map, ho] at this
    simpa using this
  rcases hn with ⟨h, e⟩ | ⟨h, k, hk, n, hn, e⟩ | ⟨_, _, e⟩
  · obtain ⟨own', h1, h2, h3⟩ := owns_flatten h
    rw [ho] at h1; cases h1
    rw [h3, List.getElem?_append_left (by omega), e]
  · rw [hm.size] at hn; cases hn
    rw [List.getElem?_append_right (by omega), ← hs k q hk]
    congr 1; omega
  · omega

/-! ### `std::set` -/

theorem mem_sIns (x y : Int) : ∀ s, y ∈ sIns x s ↔ y = x ∨ y ∈ s
  | [] => by simp [sIns]
  | z :: zs => by
      unfold sIns
      split
      · simp
      · split
        · rename_i h; subst h; simp
        · simp only [List.mem_cons, mem_sIns x y zs]
          constructor
          · rintro (h | h | h) <;> simp [h]
          · rintro (h | h | h) <;> simp [h]

theorem sorted_sIns (x : Int) : ∀ s : List Int, s.Pairwise (· < ·) → (sIns x s).Pairwise (· < ·)
  | [], _ => by simp [sIns]
  | z :: zs, h => by
      obtain ⟨h1, h2⟩ := List.pairwise_cons.1 h
      unfold sIns
      split
      · rename_i hlt
        refine List.pairwise_cons.2 ⟨?_, h⟩
        intro y hy
        rcases List.mem_cons.1 hy with rfl | hy
        · exact hlt
        · have := h1 y hy; omega
      · split
        · exact h
        · refine List.pairwise_cons.2 ⟨?_, sorted_sIns x zs h2⟩
          intro y hy
          rcases (mem_sIns x y zs).1 hy with rfl | hy
          · omega
          · exact h1 y hy

theorem mem_foldIns (y : Int) : ∀ (row s : List Int), y ∈ row.foldl (fun s c => sIns c s) s ↔ y ∈ row ∨ y ∈ s
  | [], s => by simp
  | c :: row, s => by
      rw [List.foldl_cons, mem_foldIns y row, mem_sIns]
      simp only [List.mem_cons]
      constructor
      · rintro (h | h | h) <;> simp [h]
      · rintro ((h | h) | h) <;> simp [h]

theorem sorted_foldIns : ∀ (row s : List Int), s.Pairwise (· < ·) → (row.foldl (fun s c => sIns c s) s).Pairwise (· < ·)
  | [], _, h => h
  | c :: row, s, h => sorted_foldIns row _ (sorted_sIns c s h)

theorem mem_foldIf (p : Int → Bool) (y : Int) : ∀ (row s : List Int),
    y ∈ row.foldl (fun s c => if p c then sIns c s else s) s ↔ (y ∈ row ∧ p y = true) ∨ y ∈ s
  | [], s => by simp
  | c :: row, s => by
      rw [List.foldl_cons, mem_foldIf p y row]
      by_cases hc : p c = true
      · rw [if_pos hc, mem_sIns]
        simp only [List.mem_cons]
        constructor
        · rintro (⟨h, h'⟩ | rfl | h)
          · exact Or.inl ⟨Or.inr h, h'⟩
          · exact Or.inl ⟨Or.inl rfl, hc⟩
          · exact Or.inr h
        · rintro (⟨rfl | h, h'⟩ | h)
          · exact Or.inr (Or.inl rfl)
          · exact Or.inl ⟨h, h'⟩
          · exact Or.inr (Or.inr h)
      · rw [if_neg hc]
        simp only [List.mem_cons]
        constructor
        · rintro (⟨h, h'⟩ | h)
          · exact Or.inl ⟨Or.inr h, h'⟩
          · exact Or.inr h
        · rintro (⟨rfl | h, h'⟩ | h)
          · exact absurd h' hc
          · exact Or.inl ⟨h, h'⟩
          · exact Or.inr h

theorem sorted_foldIf (p : Int → Bool) : ∀ (row s : List Int), s.Pairwise (· < ·) →
    (row.foldl (fun s c => if p c then sIns c s else s) s).Pairwise (· < ·)
  | [], _, h => h
  | c :: row, s, h => by
      rw [List.foldl_cons]
      refine sorted_foldIf p row _ ?_
      split
      · exact sorted_sIns c s h
      · exact h

theorem nodup_of_sorted {s : List Int} (h : s.Pairwise (· < ·)) : s.Nodup := h.imp (by intro a b h; omega)

/-! ### Looking up a node -/

theorem lookupFrom_spec (q : Int) : ∀ (l : List Int) (i : Nat),
    (∃ k, lookupFrom q i l = some (i + k) ∧ l[k]? = some q) ∨ (q ∉ l ∧ lookupFrom q i l = none)
  | [], i => Or.inr ⟨by simp, rfl⟩
  | x :: xs, i => by
      rcases lookupFrom_spec q xs (i + 1) with ⟨k, h1, h2⟩ | ⟨h1, h2⟩
      · refine Or.inl ⟨k + 1, ?_, by simpa using h2⟩
        simp only [lookupFrom, h1]
        congr 1; omega
      · by_cases hx : x = q
        · exact Or.inl ⟨0, by simp [lookupFrom, h2, hx], by simp [hx]⟩
        · refine Or.inr ⟨?_, by simp [lookupFrom, h2, hx]⟩
          simp only [List.mem_cons, not_or]
          exact ⟨fun h => hx h.symm, h1⟩

/-- the table and the rows agree with `all` -/
def TblOk (tbl : List Int) (rows all : List (List Int)) : Prop :=
  ∀ (k : Nat) (q : Int), tbl[k]? = some q → 0 ≤ q ∧ ∃ row, rows[k]? = some row ∧ all[q.toNat]? = some row

theorem cellsOfNode_spec {tbl : List Int} {rows all : List (List Int)} (h : TblOk tbl rows all) (q : Int) :
    (q ∈ tbl ∧ ∃ row, cellsOfNode tbl rows q = .ok row ∧ all[q.toNat]? = some row) ∨ (q ∉ tbl ∧ cellsOfNode tbl rows q = .abort) := by
  rcases lookupFrom_spec q tbl 0 with ⟨k, h1, h2⟩ | ⟨h1, h2⟩
  · obtain ⟨_, row, hr, ha⟩ := h k q h2
    refine Or.inl ⟨List.mem_of_getElem? h2, row, ?_, ha⟩
    rw [cellsOfNode, h1, Nat.zero_add]
    exact (idx_ok_iff rows k row).2 hr
  · exact Or.inr ⟨h1, by rw [cellsOfNode, h2]⟩

/-- `node2cell` in terms of the mesh -/
def Lists (ps : List Piece) (all : List (List Int)) : Prop := ∀ (i : Nat) (row : List Int), all[i]? = some row → ∀ c, c ∈ row ↔ HasNode ps c i

theorem gather_spec {ps : List Piece} {tbl : List Int} {rows all : List (List Int)} (h : TblOk tbl rows all) (hL : Lists ps all) :
    ∀ (nodes s : List Int), s.Pairwise (· < ·) → (∀ q ∈ nodes, q ∈ tbl) →
      ∃ t, gather tbl rows s nodes = .ok t ∧ t.Pairwise (· < ·) ∧ ∀ c, c ∈ t ↔ c ∈ s ∨ ∃ q ∈ nodes, HasNode ps c q
  | [], s, hs, _ => ⟨s, rfl, hs, by simp⟩
  | q :: qs, s, hs, hq => by
      rcases cellsOfNode_spec h q with ⟨hm, row, e, ha⟩ | ⟨hm, _⟩
      · obtain ⟨k, hk⟩ := List.mem_iff_getElem?.1 hm
        have hq0 := (h k q hk).1
        obtain ⟨t, e', ht, hc⟩ := gather_spec h hL qs (row.foldl (fun s c => sIns c s) s) (sorted_foldIns row s hs)
          (fun x hx => hq x (List.mem_cons_of_mem _ hx))
        refine ⟨t, by rw [gather, e, Res.ok_bind, e'], ht, ?_⟩
        intro c
        have hrow := hL q.toNat row ha c
        rw [show ((q.toNat : Nat) : Int) = q by omega] at hrow
        rw [hc, mem_foldIns, hrow]
        simp only [List.mem_cons]
        constructor
        · rintro ((h | h) | ⟨x, h, h'⟩)
          · exact Or.inr ⟨q, Or.inl rfl, h⟩
          · exact Or.inl h
          · exact Or.inr ⟨x, Or.inr h, h'⟩
        · rintro (h | ⟨x, rfl | h, h'⟩)
          · exact Or.inl (Or.inr h)
          · exact Or.inl (Or.inl h')
          · exact Or.inr ⟨x, h, h'⟩
      · exact absurd (hq q (List.mem_cons_self ..)) hm

theorem common_some {ps : List Piece} {tbl : List Int} {rows all : List (List Int)} (h : TblOk tbl rows all) (hL : Lists ps all) :
    ∀ (nodes s : List Int), s.Pairwise (· < ·) → (∀ q ∈ nodes, q ∈ tbl) →
      ∃ t, common tbl rows (some s) nodes = .ok t ∧ t.Pairwise (· < ·) ∧ ∀ c, c ∈ t ↔ c ∈ s ∧ ∀ q ∈ nodes, HasNode ps c q
  | [], s, hs, _ => ⟨s, rfl, hs, by simp⟩
  | q :: qs, s, hs, hq => by
      rcases cellsOfNode_spec h q with ⟨hm, row, e, ha⟩ | ⟨hm, _⟩
      · obtain ⟨k, hk⟩ := List.mem_iff_getElem?.1 hm
        have hq0 := (h k q hk).1
        obtain ⟨t, e', ht, hc⟩ := common_some h hL qs _ (sorted_foldIf (fun c => decide (c ∈ s)) row [] List.Pairwise.nil)
          (fun x hx => hq x (List.mem_cons_of_mem _ hx))
        refine ⟨t, by rw [common, e, Res.ok_bind]; exact e', ht, ?_⟩
        intro c
        have hrow := hL q.toNat row ha c
        rw [show ((q.toNat : Nat) : Int) = q by omega] at hrow
        rw [hc, mem_foldIf, hrow]
        simp only [decide_eq_true_eq, List.not_mem_nil, or_false, List.mem_cons, forall_eq_or_imp]
        constructor
        · rintro ⟨⟨a, b⟩, d⟩; exact ⟨b, a, d⟩
        · rintro ⟨b, a, d⟩; exact ⟨⟨a, b⟩, d⟩
      · exact absurd (hq q (List.mem_cons_self ..)) hm

theorem common_spec {ps : List Piece} {tbl : List Int} {rows all : List (List Int)} (h : TblOk tbl rows all) (hL : Lists ps all)
    (b : Bnd) (hb : b.nodes ≠ []) (hq : ∀ q ∈ b.nodes, q ∈ tbl) :
    ∃ t, common tbl rows none b.nodes = .ok t ∧ t.Pairwise (· < ·) ∧ ∀ c, c ∈ t ↔ Covers ps c b := by
  unfold Covers
  revert hb hq
  generalize b.nodes = nodes
  intro hb hq
  match nodes, hb with
  | q :: qs, _ =>
    rcases cellsOfNode_spec h q with ⟨hm, row, e, ha⟩ | ⟨hm, _⟩
    · obtain ⟨k, hk⟩ := List.mem_iff_getElem?.1 hm
      have hq0 := (h k q hk).1
      obtain ⟨t, e', ht, hc⟩ := common_some h hL qs _ (sorted_foldIf (fun _ => true) row [] List.Pairwise.nil)
        (fun x hx => hq x (List.mem_cons_of_mem _ hx))
      refine ⟨t, by rw [common, e, Res.ok_bind]; exact e', ht, ?_⟩
      intro c
      have hrow := hL q.toNat row ha c
      rw [show ((q.toNat : Nat) : Int) = q by omega] at hrow
      rw [hc, mem_foldIf, hrow]
      simp only [and_true, List.not_mem_nil, or_false, List.mem_cons, forall_eq_or_imp]
    · exact absurd (hq q (List.mem_cons_self ..)) hm

/-- the table of a rank -/
theorem table_ok {n2c : List (List (List Int))} {r : Nat} {m : Map} (hm : Faithful (n2c.map List.length) r m) {own son : List (List Int)}
    (ho : n2c[r]? = some own) (hl : son.length = m.ghostIndex.length)
    (hs : ∀ (k : Nat) (q : Int), m.ghostIndex[k]? = some q → son[k]? = n2c.flatten[q.toNat]?) :
    ∃ tbl, nodeTable m (own ++ son).length = .ok tbl ∧ TblOk tbl (own ++ son) n2c.flatten ∧
      ∀ q, q ∈ tbl ↔ Owns (n2c.map List.length) r q ∨ q ∈ m.ghostIndex := by
  have hsz : own.length = m.mainSize := by
    have := hm.size
    rw [List.getElem?_map, ho] at this
    simpa using this
  have hrange := hm.loc.range
  obtain ⟨tbl, e, l, h⟩ := N2C.forRanks_all (fun i (_ : Unit) => m.apply (-1) (i : Int))
    (fun i _ q => 0 ≤ q ∧ (Owns (n2c.map List.length) r q ∨ q ∈ m.ghostIndex) ∧ LocalName (n2c.map List.length) r m.ghostIndex q i ∨
      0 ≤ q ∧ q ∈ m.ghostIndex ∧ (own ++ son)[i]? = n2c.flatten[q.toNat]?) (List.replicate (own ++ son).length ()) (by
      intro i x hx
      have hi : i < (own ++ son).length := by simpa using (List.getElem?_eq_some_iff.1 hx).1
      rw [List.length_append] at hi
      rw [hm.apply_main, if_pos (by omega)]
      refine ⟨_, rfl, ?_⟩
      by_cases hlt : i < m.mainSize
      · rw [if_pos (by omega)]
        have : Owns (n2c.map List.length) r ((before (n2c.map List.length) r : Int) + i) := (hm.owns_iff _).2 (by omega)
        exact Or.inl ⟨by omega, Or.inl this, Or.inl ⟨this, by omega⟩⟩
      · rw [if_neg (by omega), show ((i : Int) - m.mainSize).toNat = i - m.mainSize by omega]
        have hk : i - m.mainSize < m.ghostIndex.length := by omega
        rw [List.getElem?_eq_getElem hk, Option.getD_some]
        refine Or.inr ⟨(hrange _ (List.getElem_mem hk)).1, List.getElem_mem hk, ?_⟩
        rw [List.getElem?_append_right (by omega), hsz]
        exact hs _ _ (List.getElem?_eq_getElem hk))
  rw [List.length_replicate] at l
  have hval : ∀ (k : Nat) (q : Int), tbl[k]? = some q → k < (own ++ son).length ∧ 0 ≤ q ∧ (Owns (n2c.map List.length) r q ∨ q ∈ m.ghostIndex) ∧
      (own ++ son)[k]? = n2c.flatten[q.toNat]? := by
    intro k q hk
    have hkl : k < (own ++ son).length := by rw [← l]; exact (List.getElem?_eq_some_iff.1 hk).1
    rcases h k () q (by rw [List.getElem?_replicate, if_pos hkl]) hk with ⟨h1, h2, h3⟩ | ⟨h1, h2, h3⟩
    · refine ⟨hkl, h1, h2, ?_⟩
      have := held_row hm ho hl hs h1 (by omega) h3
      rw [show ((k : Nat) : Int).toNat = k by omega] at this
      exact this
    · exact ⟨hkl, h1, Or.inr h2, h3⟩
  refine ⟨tbl, e, ?_, ?_⟩
  · intro k q hk
    obtain ⟨h1, h2, h3, h4⟩ := hval k q hk
    exact ⟨h2, _, List.getElem?_eq_getElem h1, by rw [← h4]; exact List.getElem?_eq_getElem h1⟩
  · intro q
    constructor
    · intro hq
      obtain ⟨k, hk⟩ := List.mem_iff_getElem?.1 hq
      exact (hval k q hk).2.2.1
    · intro hq
      have hval2 : ∀ i < (own ++ son).length, ∃ y, tbl[i]? = some y ∧ m.apply (-1) (i : Int) = .ok y := by
        intro i hi
        obtain ⟨y, h1, h2⟩ := ((forRanks_ok _ _ _ _).1 e).2 i () (by rw [List.getElem?_replicate, if_pos hi])
        exact ⟨y, h1, by rw [Nat.zero_add] at h2; exact h2⟩
      rw [List.length_append] at hval2
      by_cases ho' : Owns (n2c.map List.length) r q
      · obtain ⟨a, b⟩ := (hm.owns_iff q).1 ho'
        obtain ⟨y, h1, h2⟩ := hval2 (q - before (n2c.map List.length) r).toNat (by omega)
        rw [hm.apply_main, if_pos (by omega), if_pos (by omega)] at h2
        have := Res.ok.inj h2
        have : y = q := by omega
        subst this
        exact List.mem_of_getElem? h1
      · have hg : q ∈ m.ghostIndex := hq.resolve_left ho'
        obtain ⟨k, hk⟩ := List.mem_iff_getElem?.1 hg
        have hkl := (List.getElem?_eq_some_iff.1 hk).1
        obtain ⟨y, h1, h2⟩ := hval2 (m.mainSize + k) (by omega)
        rw [hm.apply_main, if_pos (by omega), if_neg (by omega), show (((m.mainSize + k : Nat) : Int) - m.mainSize).toNat = k by omega, hk] at h2
        have := Res.ok.inj h2
        simp only [Option.getD_some] at this
        subst this
        exact List.mem_of_getElem? h1

/-! ### Requests -/

theorem mem_setInsert (s : List Int) (c x : Int) : x ∈ setInsert s c ↔ x ∈ s ∨ x = c := by
  unfold setInsert
  split
  · constructor
    · exact Or.inl
    · rintro (h | rfl)
      · exact h
      · assumption
  · simp

theorem len_setInsert (s : List Int) (c : Int) : (setInsert s c).length ≤ s.length + 1 := by
  unfold setInsert; split <;> simp

theorem needNodes_spec {lens : List Nat} {g : GOM} (hg : Built lens g) (r : Nat) : ∀ (qs s : List Int), (∀ q ∈ qs, Global lens q) →
    ∃ t, needNodes g r s qs = .ok t ∧ t.length ≤ s.length + qs.length ∧ ∀ x, x ∈ t ↔ x ∈ s ∨ (x ∈ qs ∧ ¬ Owns lens r x)
  | [], s, _ => ⟨s, rfl, by simp, by simp⟩
  | q :: qs, s, h => by
      have hq := h q (List.mem_cons_self ..)
      obtain ⟨ρ, hρ⟩ := owns_exists hq.1 hq.2
      have e : global2LocalNoSon g r q = .ok (if ρ = r then q - before lens ρ else -1 - q) := by
        rw [global2LocalNoSon, if_neg (by have := hq.1; have : Part.unInit < 0 := by decide
                                          omega), search_of_owns hg hρ]
        rfl
      have hρ' : (if ρ = r then q - before lens ρ else -1 - q) < 0 ↔ ¬ Owns lens r q := by
        by_cases hr : ρ = r
        · subst hr
          have h1 := hρ.2.1
          rw [if_pos rfl]
          constructor
          · intro; omega
          · intro hn; exact absurd hρ hn
        · rw [if_neg hr]
          have := hq.1
          constructor
          · intro _ ho; exact hr (owns_unique hρ ho)
          · intro _; omega
      obtain ⟨t, e', hl, ht⟩ := needNodes_spec hg r qs (if (if ρ = r then q - before lens ρ else -1 - q) < 0 then setInsert s q else s)
        (fun x hx => h x (List.mem_cons_of_mem _ hx))
      refine ⟨t, by rw [needNodes, e, Res.ok_bind, e'], ?_, ?_⟩
      · have := len_setInsert s q
        have hle : (if (if ρ = r then q - before lens ρ else -1 - q) < 0 then setInsert s q else s).length ≤ s.length + 1 := by
          generalize (if ρ = r then q - before lens ρ else -1 - q) = z
          split <;> omega
        rw [List.length_cons]
        omega
      · intro x
        rw [ht]
        by_cases hn : Owns lens r q
        · rw [if_neg (fun h => hρ'.1 h hn)]
          simp only [List.mem_cons]
          constructor
          · rintro (h | ⟨h, h'⟩)
            · exact Or.inl h
            · exact Or.inr ⟨Or.inr h, h'⟩
          · rintro (h | ⟨rfl | h, h'⟩)
            · exact Or.inl h
            · exact absurd hn h'
            · exact Or.inr ⟨h, h'⟩
        · rw [if_pos (hρ'.2 hn), mem_setInsert]
          simp only [List.mem_cons]
          constructor
          · rintro ((h | rfl) | ⟨h, h'⟩)
            · exact Or.inl h
            · exact Or.inr ⟨Or.inl rfl, hn⟩
            · exact Or.inr ⟨Or.inr h, h'⟩
          · rintro (h | ⟨rfl | h, h'⟩)
            · exact Or.inl (Or.inl h)
            · exact Or.inl (Or.inr rfl)
            · exact Or.inr ⟨h, h'⟩

theorem away_spec {lens : List Nat} {g : GOM} (hg : Built lens g) (r : Nat) : ∀ (qs : List Int), (∀ q ∈ qs, Global lens q) →
    ∃ t, away g r qs = .ok t ∧ t.length ≤ qs.length ∧ ∀ x, x ∈ t ↔ x ∈ qs ∧ ¬ Owns lens r x
  | [], _ => ⟨[], rfl, by simp, by simp⟩
  | q :: qs, h => by
      have hq := h q (List.mem_cons_self ..)
      obtain ⟨ρ, hρ⟩ := owns_exists hq.1 hq.2
      obtain ⟨t, e, hl, ht⟩ := away_spec hg r qs (fun x hx => h x (List.mem_cons_of_mem _ hx))
      refine ⟨if ρ ≠ r then q :: t else t, by simp only [away, search_of_owns hg hρ, e, Res.ok_bind], ?_, ?_⟩
      · split <;> simp <;> omega
      · intro x
        by_cases hr : ρ = r
        · subst hr
          rw [if_neg (by simp), ht]
          simp only [List.mem_cons]
          constructor
          · rintro ⟨h, h'⟩; exact ⟨Or.inr h, h'⟩
          · rintro ⟨rfl | h, h'⟩
            · exact absurd hρ h'
            · exact ⟨h, h'⟩
        · rw [if_pos hr]
          simp only [List.mem_cons, ht]
          constructor
          · rintro (rfl | ⟨h, h'⟩)
            · exact ⟨Or.inl rfl, fun ho => hr (owns_unique hρ ho)⟩
            · exact ⟨Or.inr h, h'⟩
          · rintro ⟨rfl | h, h'⟩
            · exact Or.inl rfl
            · exact Or.inr ⟨h, h'⟩

end DNDSR.Ghost
