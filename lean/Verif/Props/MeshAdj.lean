import Verif.Proof.MeshAdj

/-!
# C24: converting adjacencies from global to local numbers and back restores them
-/

namespace DNDSR.MeshAdj

open DNDSR.IMap DNDSR.Part DNDSR.Tran

/-- the mappings of rank `r`: `cl`, `nl`, `fl`, `bl` are the numbers of cells, nodes, faces and boundaries per rank -/
structure Setting (w : Maps) (cl nl fl bl : List Nat) : Prop where
  cell : Collective cl w.rank w.cell
  node : Collective nl w.rank w.node
  face : Collective fl w.rank w.face
  bnd : Built bl w.bnd
  bndSize : bl[w.rank]? = some w.nBnd
  fits : Fits cl ∧ Fits nl ∧ Fits fl ∧ Fits bl

/-- an entry of an adjacency in global numbers -/
def Entry (lens : List Nat) (q : Int) : Prop := q = unInit ∨ Global lens q

/-- the local form of an entry -/
def EntryName (lens : List Nat) (r : Nat) (ghosts : List Int) (q v : Int) : Prop :=
  (q = unInit ∧ v = unInit) ∨ (q ≠ unInit ∧ LocalName lens r ghosts q v)

/-- the rank has its own row or a copy of entry `q` -/
def Present (lens : List Nat) (r : Nat) (ghosts : List Int) (q : Int) : Prop :=
  q ≠ unInit ∧ (Owns lens r q ∨ q ∈ ghosts)

/-! ### single entries -/

theorem toLocal_entry {lens : List Nat} {r : Nat} {m : Map} (h : Faithful lens r m) (q v : Int)
    (hv : global2Local m q = .ok v) : EntryName lens r m.ghostIndex q v := by
  by_cases hu : q = unInit
  · rw [global2Local, if_pos hu] at hv; cases hv
    exact Or.inl ⟨hu, hu⟩
  · obtain ⟨v', e, hn⟩ := h.global2Local_eq q hu
    rw [hv] at e; cases e
    exact Or.inr ⟨hu, hn⟩

theorem toLocal_total {lens : List Nat} {r : Nat} {m : Map} (h : Faithful lens r m) (q : Int) :
    ∃ v, global2Local m q = .ok v := by
  by_cases hu : q = unInit
  · exact ⟨q, by rw [global2Local, if_pos hu]⟩
  · obtain ⟨v', e, _⟩ := h.global2Local_eq q hu
    exact ⟨v', e⟩

/-- **C24** for one entry: whatever a rank converts to a local number it converts back to the same
global number, be the entry its own, a ghost, absent or the mark "no entry". -/
theorem entry_restored {lens : List Nat} {r : Nat} {m : Map} (hm : Collective lens r m) (hf : Fits lens) (q v : Int)
    (hq : Entry lens q) (hv : global2Local m q = .ok v) : local2Global m v = .ok q := by
  rcases toLocal_entry hm.faithful q v hv with ⟨h1, h2⟩ | ⟨h1, h2⟩
  · rw [local2Global, if_pos h2, h1, h2]
  · rcases hq with hq | hq
    · exact absurd hq h1
    · exact hm.faithful.local2Global_of_name hf hq h2

/-- **C24** for one entry, the other way round. -/
theorem name_restored {lens : List Nat} {r : Nat} {m : Map} (hm : Collective lens r m) (hf : Fits lens) (q v : Int)
    (hn : (q = unInit ∧ v = unInit) ∨ (Global lens q ∧ LocalName lens r m.ghostIndex q v)) :
    local2Global m v = .ok q ∧ global2Local m q = .ok v := by
  rcases hn with ⟨h1, h2⟩ | ⟨h1, h2⟩
  · rw [local2Global, if_pos h2, global2Local, if_pos h1, h1, h2]; exact ⟨rfl, rfl⟩
  · have hu : q ≠ unInit := by
      intro e; rw [e] at h1; have := h1.1; simp [unInit] at this
    obtain ⟨v', e, hn'⟩ := hm.faithful.global2Local_eq q hu
    refine ⟨hm.faithful.local2Global_of_name hf h1 h2, ?_⟩
    rw [e, hm.faithful.name_unique h2 hn']

theorem nonneg_ok (f : Int → Res Int) (x y : Int) : nonneg f x = .ok y ↔ f x = .ok y ∧ 0 ≤ y := by
  simp only [nonneg, Res.bind_ok_iff, Res.assert_ok_iff, Res.ok.injEq]
  constructor
  · rintro ⟨a, h1, _, h2, rfl⟩; exact ⟨h1, h2⟩
  · rintro ⟨h1, h2⟩; exact ⟨y, h1, (), h2, rfl⟩

theorem firstNonneg_ok (f : Int → Res Int) (j : Nat) (x y : Int) :
    firstNonneg f j x = .ok y ↔ f x = .ok y ∧ (j = 0 → 0 ≤ y) := by
  simp only [firstNonneg, Res.bind_ok_iff, Res.assert_ok_iff, Res.ok.injEq]
  constructor
  · rintro ⟨a, h1, _, h2, rfl⟩
    refine ⟨h1, fun h => ?_⟩
    rw [if_pos h] at h2; exact h2
  · rintro ⟨h1, h2⟩
    refine ⟨y, h1, (), ?_, rfl⟩
    split
    · exact h2 (by assumption)
    · trivial

theorem name_present {lens : List Nat} {r : Nat} {m : Map} {q v : Int}
    (hn : EntryName lens r m.ghostIndex q v) (hq : 0 ≤ q ∨ q = unInit) : 0 ≤ v ↔ Present lens r m.ghostIndex q := by
  rcases hn with ⟨h1, h2⟩ | ⟨h1, h2⟩
  · constructor
    · intro h; rw [h2] at h; simp [unInit] at h
    · intro h; exact absurd h1 h.1
  · have hq' : 0 ≤ q := by rcases hq with hq | hq; exact hq; exact absurd hq h1
    rcases h2 with ⟨ho, e⟩ | ⟨ho, k, hk, n, hsz, e⟩ | ⟨ho, hg, e⟩
    · refine ⟨fun _ => ⟨h1, Or.inl ho⟩, fun _ => ?_⟩
      obtain ⟨_, a, _⟩ := ho; omega
    · exact ⟨fun _ => ⟨h1, Or.inr (List.mem_of_getElem? hk)⟩, fun _ => by omega⟩
    · refine ⟨fun h => by omega, fun h => ?_⟩
      rcases h.2 with h | h
      · exact absurd h ho
      · exact absurd h hg

theorem entry_sign {lens : List Nat} {q : Int} (h : Entry lens q) : 0 ≤ q ∨ q = unInit := by
  rcases h with h | h
  · exact Or.inr h
  · exact Or.inl h.1

/-! ### the primary adjacencies -/

/-- valid primary adjacencies in global numbers -/
structure Primary.Valid (s : Primary) (cl nl : List Nat) : Prop where
  cell2cell : EachEntry (Entry cl) s.cell2cell
  bnd2cell : EachEntry (Entry cl) s.bnd2cell
  cell2node : EachEntry (Entry nl) s.cell2node
  bnd2node : EachEntry (Entry nl) s.bnd2node

/-- **C24**, primary adjacencies: after `AdjGlobal2LocalPrimary`, `AdjLocal2GlobalPrimary` restores every
entry of `cell2cell`, `bnd2cell`, `cell2node` and `bnd2node`. -/
theorem primary_restored {w : Maps} {cl nl fl bl : List Nat} (hw : Setting w cl nl fl bl) (s s' : Primary)
    (hs : s.Valid cl nl) (h : adjGlobal2LocalPrimary w s = .ok s') : adjLocal2GlobalPrimary w s' = .ok s := by
  simp only [adjGlobal2LocalPrimary, Res.bind_ok_iff, Res.assert_ok_iff, Res.ok.injEq] at h
  obtain ⟨_, hst, c2c, h1, b2c, h2, c2n, h3, b2n, h4, rfl⟩ := h
  have r1 := mapRows_roundtrip _ (fun _ x => local2Global w.cell x) _ _ h1 (by
    intro row hrow j x y hx hy
    exact entry_restored hw.cell hw.fits.1 x y (hs.cell2cell row hrow x (List.mem_of_getElem? hx)) hy)
  have r2 := mapRows_roundtrip _ (fun j x => firstNonneg (local2Global w.cell) j x) _ _ h2 (by
    intro row hrow j x y hx hy
    have he := hs.bnd2cell row hrow x (List.mem_of_getElem? hx)
    obtain ⟨a, b⟩ := (firstNonneg_ok _ _ _ _).1 hy
    refine (firstNonneg_ok _ _ _ _).2 ⟨entry_restored hw.cell hw.fits.1 x y he a, fun hj => ?_⟩
    have hp := (name_present (toLocal_entry hw.cell.faithful x y a) (entry_sign he)).1 (b hj)
    rcases entry_sign he with h | h
    · exact h
    · exact absurd h hp.1)
  have node : ∀ rows rows', EachEntry (Entry nl) rows →
      mapRows (fun _ x => nonneg (global2Local w.node) x) rows = .ok rows' →
      mapRows (fun _ x => nonneg (local2Global w.node) x) rows' = .ok rows := by
    intro rows rows' hr hh
    refine mapRows_roundtrip _ _ _ _ hh ?_
    intro row hrow j x y hx hy
    have he := hr row hrow x (List.mem_of_getElem? hx)
    obtain ⟨a, b⟩ := (nonneg_ok _ _ _).1 hy
    refine (nonneg_ok _ _ _).2 ⟨entry_restored hw.node hw.fits.2.1 x y he a, ?_⟩
    have hp := (name_present (toLocal_entry hw.node.faithful x y a) (entry_sign he)).1 b
    rcases entry_sign he with h | h
    · exact h
    · exact absurd h hp.1
  have r3 := node _ _ hs.cell2node h3
  have r4 := node _ _ hs.bnd2node h4
  simp only [adjLocal2GlobalPrimary, Res.bind_ok_iff, Res.assert_ok_iff, Res.ok.injEq]
  refine ⟨(), trivial, _, r1, _, r2, _, r3, _, r4, ?_⟩
  rw [← hst]

/-- **C24**, what the local form is and when the conversion succeeds: every entry becomes the rank's local
name of it; the call aborts exactly when the state is wrong, a node of a cell or boundary is not kept on the
rank, or a boundary's first cell is not. -/
theorem primary_to_local {w : Maps} {cl nl fl bl : List Nat} (hw : Setting w cl nl fl bl) (s : Primary)
    (hs : s.Valid cl nl) :
    (∀ s', adjGlobal2LocalPrimary w s = .ok s' → s'.state = .pointToLocal ∧
      RowsRel (EntryName cl w.rank w.cell.ghostIndex) s.cell2cell s'.cell2cell ∧
      RowsRel (EntryName cl w.rank w.cell.ghostIndex) s.bnd2cell s'.bnd2cell ∧
      RowsRel (EntryName nl w.rank w.node.ghostIndex) s.cell2node s'.cell2node ∧
      RowsRel (EntryName nl w.rank w.node.ghostIndex) s.bnd2node s'.bnd2node) ∧
    ((∃ s', adjGlobal2LocalPrimary w s = .ok s') ↔ s.state = .pointToGlobal ∧
      EachEntry (Present nl w.rank w.node.ghostIndex) s.cell2node ∧
      EachEntry (Present nl w.rank w.node.ghostIndex) s.bnd2node ∧
      ∀ row ∈ s.bnd2cell, ∀ x, row[0]? = some x → Present cl w.rank w.cell.ghostIndex x) ∧
    adjGlobal2LocalPrimary w s ≠ .ub := by
  have hnode : ∀ rows, EachEntry (Entry nl) rows →
      ((∃ rows', mapRows (fun _ x => nonneg (global2Local w.node) x) rows = .ok rows') ↔
        EachEntry (Present nl w.rank w.node.ghostIndex) rows) := by
    intro rows hr
    constructor
    · rintro ⟨rows', h⟩ row hrow x hx
      obtain ⟨j, hj, e⟩ := List.mem_iff_getElem.1 hx
      obtain ⟨y, hy⟩ := mapRows_entry _ _ _ h row hrow j x (by rw [List.getElem?_eq_getElem hj, e])
      obtain ⟨a, b⟩ := (nonneg_ok _ _ _).1 hy
      exact (name_present (toLocal_entry hw.node.faithful x y a) (entry_sign (hr row hrow x hx))).1 b
    · intro h
      apply mapRows_total
      intro row hrow j x hx
      have hx' := List.mem_of_getElem? hx
      obtain ⟨y, hy⟩ := toLocal_total hw.node.faithful x
      exact ⟨y, (nonneg_ok _ _ _).2 ⟨hy, (name_present (toLocal_entry hw.node.faithful x y hy)
        (entry_sign (hr row hrow x hx'))).2 (h row hrow x hx')⟩⟩
  have hub : ∀ (f : Nat → Int → Res Int) rows, (∀ j x, f j x ≠ .ub) → mapRows f rows ≠ .ub := by
    intro f rows hf
    apply forRanks_ne_ub
    intro i row _
    apply forRanks_ne_ub
    intro j x _
    exact hf _ _
  have hubc : ∀ x, global2Local w.cell x ≠ .ub := by
    intro x h; obtain ⟨v, e⟩ := toLocal_total hw.cell.faithful x; rw [h] at e; cases e
  have hubn : ∀ x, global2Local w.node x ≠ .ub := by
    intro x h; obtain ⟨v, e⟩ := toLocal_total hw.node.faithful x; rw [h] at e; cases e
  have hubnn : ∀ (j : Nat) x, nonneg (global2Local w.node) x ≠ .ub := by
    intro j x
    simp only [nonneg, Res.bind_ub_iff, ne_eq, not_or, not_exists, not_and, Res.assert_ne_ub]
    exact ⟨hubn x, fun a _ => ⟨by simp, by simp⟩⟩
  have hubf : ∀ (j : Nat) x, firstNonneg (global2Local w.cell) j x ≠ .ub := by
    intro j x
    simp only [firstNonneg, Res.bind_ub_iff, ne_eq, not_or, not_exists, not_and, Res.assert_ne_ub]
    exact ⟨hubc x, fun a _ => ⟨by simp, by simp⟩⟩
  refine ⟨?_, ?_, ?_⟩
  · intro s' h
    simp only [adjGlobal2LocalPrimary, Res.bind_ok_iff, Res.assert_ok_iff, Res.ok.injEq] at h
    obtain ⟨_, hst, c2c, h1, b2c, h2, c2n, h3, b2n, h4, rfl⟩ := h
    refine ⟨rfl, mapRows_rel _ _ _ _ h1 ?_, mapRows_rel _ _ _ _ h2 ?_, mapRows_rel _ _ _ _ h3 ?_,
      mapRows_rel _ _ _ _ h4 ?_⟩
    · intro _ _ _ x y _ hy; exact toLocal_entry hw.cell.faithful x y hy
    · intro _ _ _ x y _ hy; exact toLocal_entry hw.cell.faithful x y ((firstNonneg_ok _ _ _ _).1 hy).1
    · intro _ _ _ x y _ hy; exact toLocal_entry hw.node.faithful x y ((nonneg_ok _ _ _).1 hy).1
    · intro _ _ _ x y _ hy; exact toLocal_entry hw.node.faithful x y ((nonneg_ok _ _ _).1 hy).1
  · simp only [adjGlobal2LocalPrimary, Res.bind_ok_iff, Res.assert_ok_iff, Res.ok.injEq]
    constructor
    · rintro ⟨s', _, hst, c2c, h1, b2c, h2, c2n, h3, b2n, h4, rfl⟩
      refine ⟨hst, (hnode _ hs.cell2node).1 ⟨_, h3⟩, (hnode _ hs.bnd2node).1 ⟨_, h4⟩, ?_⟩
      intro row hrow x hx
      obtain ⟨y, hy⟩ := mapRows_entry _ _ _ h2 row hrow 0 x hx
      obtain ⟨a, b⟩ := (firstNonneg_ok _ _ _ _).1 hy
      exact (name_present (toLocal_entry hw.cell.faithful x y a)
        (entry_sign (hs.bnd2cell row hrow x (List.mem_of_getElem? hx)))).1 (b rfl)
    · rintro ⟨hst, p1, p2, p3⟩
      obtain ⟨c2n, h3⟩ := (hnode _ hs.cell2node).2 p1
      obtain ⟨b2n, h4⟩ := (hnode _ hs.bnd2node).2 p2
      obtain ⟨c2c, h1⟩ := mapRows_total (fun _ x => global2Local w.cell x) s.cell2cell
        (fun _ _ _ x _ => toLocal_total hw.cell.faithful x)
      obtain ⟨b2c, h2⟩ := mapRows_total (fun j x => firstNonneg (global2Local w.cell) j x) s.bnd2cell (by
        intro row hrow j x hx
        obtain ⟨y, hy⟩ := toLocal_total hw.cell.faithful x
        refine ⟨y, (firstNonneg_ok _ _ _ _).2 ⟨hy, fun hj => ?_⟩⟩
        subst hj
        exact (name_present (toLocal_entry hw.cell.faithful x y hy)
          (entry_sign (hs.bnd2cell row hrow x (List.mem_of_getElem? hx)))).2 (p3 row hrow x hx))
      exact ⟨_, (), hst, c2c, h1, b2c, h2, c2n, h3, b2n, h4, rfl⟩
  · have u1 := hub (fun _ x => global2Local w.cell x) s.cell2cell (fun _ x => hubc x)
    have u2 := hub (fun j x => firstNonneg (global2Local w.cell) j x) s.bnd2cell (fun j x => hubf j x)
    have u3 := hub (fun _ x => nonneg (global2Local w.node) x) s.cell2node (fun j x => hubnn j x)
    have u4 := hub (fun _ x => nonneg (global2Local w.node) x) s.bnd2node (fun j x => hubnn j x)
    simp only [adjGlobal2LocalPrimary, ne_eq, Res.bind_ub_iff, not_or, not_exists, not_and, Res.assert_ne_ub]
    exact ⟨by simp, fun _ _ => ⟨u1, fun _ _ => ⟨u2, fun _ _ => ⟨u3, fun _ _ => ⟨u4, by simp⟩⟩⟩⟩⟩

/-- primary adjacencies in local numbers, as the conversions leave them -/
structure Primary.ValidLocal (s : Primary) (cl nl : List Nat) (w : Maps) : Prop where
  cell2cell : EachEntry (fun v => v = unInit ∨ ∃ q, Global cl q ∧ LocalName cl w.rank w.cell.ghostIndex q v) s.cell2cell
  bnd2cell : EachEntry (fun v => v = unInit ∨ ∃ q, Global cl q ∧ LocalName cl w.rank w.cell.ghostIndex q v) s.bnd2cell
  first : ∀ row ∈ s.bnd2cell, ∀ v, row[0]? = some v → 0 ≤ v
  cell2node : EachEntry (fun v => 0 ≤ v ∧ ∃ q, Global nl q ∧ LocalName nl w.rank w.node.ghostIndex q v) s.cell2node
  bnd2node : EachEntry (fun v => 0 ≤ v ∧ ∃ q, Global nl q ∧ LocalName nl w.rank w.node.ghostIndex q v) s.bnd2node

/-- **C24**, the other way round: local to global and back. -/
theorem primary_local_restored {w : Maps} {cl nl fl bl : List Nat} (hw : Setting w cl nl fl bl) (s s' : Primary)
    (hs : s.ValidLocal cl nl w) (h : adjLocal2GlobalPrimary w s = .ok s') : adjGlobal2LocalPrimary w s' = .ok s := by
  simp only [adjLocal2GlobalPrimary, Res.bind_ok_iff, Res.assert_ok_iff, Res.ok.injEq] at h
  obtain ⟨_, hst, c2c, h1, b2c, h2, c2n, h3, b2n, h4, rfl⟩ := h
  have cell : ∀ v q, (v = unInit ∨ ∃ q, Global cl q ∧ LocalName cl w.rank w.cell.ghostIndex q v) →
      local2Global w.cell v = .ok q → global2Local w.cell q = .ok v := by
    intro v q hv hq
    rcases hv with hv | ⟨q', h1, h2⟩
    · rw [local2Global, if_pos hv] at hq; cases hq
      rw [global2Local, if_pos hv]
    · obtain ⟨a, b⟩ := name_restored hw.cell hw.fits.1 q' v (Or.inr ⟨h1, h2⟩)
      rw [hq] at a; cases a; exact b
  have r1 := mapRows_roundtrip _ (fun _ x => global2Local w.cell x) _ _ h1 (by
    intro row hrow j x y hx hy
    exact cell x y (hs.cell2cell row hrow x (List.mem_of_getElem? hx)) hy)
  have r2 := mapRows_roundtrip _ (fun j x => firstNonneg (global2Local w.cell) j x) _ _ h2 (by
    intro row hrow j x y hx hy
    obtain ⟨a, b⟩ := (firstNonneg_ok _ _ _ _).1 hy
    refine (firstNonneg_ok _ _ _ _).2 ⟨cell x y (hs.bnd2cell row hrow x (List.mem_of_getElem? hx)) a, fun hj => ?_⟩
    subst hj
    exact hs.first row hrow x hx)
  have node : ∀ rows rows',
      EachEntry (fun v => 0 ≤ v ∧ ∃ q, Global nl q ∧ LocalName nl w.rank w.node.ghostIndex q v) rows →
      mapRows (fun _ x => nonneg (local2Global w.node) x) rows = .ok rows' →
      mapRows (fun _ x => nonneg (global2Local w.node) x) rows' = .ok rows := by
    intro rows rows' hr hh
    refine mapRows_roundtrip _ _ _ _ hh ?_
    intro row hrow j x y hx hy
    obtain ⟨hp, q, hq1, hq2⟩ := hr row hrow x (List.mem_of_getElem? hx)
    obtain ⟨a, b⟩ := (nonneg_ok _ _ _).1 hy
    obtain ⟨c, d⟩ := name_restored hw.node hw.fits.2.1 q x (Or.inr ⟨hq1, hq2⟩)
    rw [a] at c; cases c
    exact (nonneg_ok _ _ _).2 ⟨d, hp⟩
  have r3 := node _ _ hs.cell2node h3
  have r4 := node _ _ hs.bnd2node h4
  simp only [adjGlobal2LocalPrimary, Res.bind_ok_iff, Res.assert_ok_iff, Res.ok.injEq]
  refine ⟨(), trivial, _, r1, _, r2, _, r3, _, r4, ?_⟩
  rw [← hst]

/-- **C24**, boundary meshes: the same for the reduced conversions. -/
theorem primary_bnd_restored {w : Maps} {cl nl fl bl : List Nat} (hw : Setting w cl nl fl bl) (s s' : Primary)
    (hs : EachEntry (Entry nl) s.cell2node) (h : adjGlobal2LocalPrimaryForBnd w s = .ok s') :
    adjLocal2GlobalPrimaryForBnd w s' = .ok s := by
  simp only [adjGlobal2LocalPrimaryForBnd, Res.bind_ok_iff, Res.assert_ok_iff, Res.ok.injEq] at h
  obtain ⟨_, hst, c2n, h3, rfl⟩ := h
  have r3 := mapRows_roundtrip _ (fun _ x => nonneg (local2Global w.node) x) _ _ h3 (by
    intro row hrow j x y hx hy
    have he := hs row hrow x (List.mem_of_getElem? hx)
    obtain ⟨a, b⟩ := (nonneg_ok _ _ _).1 hy
    refine (nonneg_ok _ _ _).2 ⟨entry_restored hw.node hw.fits.2.1 x y he a, ?_⟩
    have hp := (name_present (toLocal_entry hw.node.faithful x y a) (entry_sign he)).1 b
    rcases entry_sign he with h | h
    · exact h
    · exact absurd h hp.1)
  simp only [adjLocal2GlobalPrimaryForBnd, Res.bind_ok_iff, Res.assert_ok_iff, Res.ok.injEq]
  refine ⟨(), trivial, _, r3, ?_⟩
  rw [← hst]

/-! ### faces -/

/-- valid face adjacencies in global numbers -/
def Facial.Valid (s : Facial) (cl nl : List Nat) : Prop :=
  ∀ f ∈ s.faces, (∀ q ∈ f.1, Global nl q) ∧ ∀ q ∈ f.2, Entry cl q

/-- **C24**, faces: `face2node` and `face2cell`. -/
theorem facial_restored {w : Maps} {cl nl fl bl : List Nat} (hw : Setting w cl nl fl bl) (s s' : Facial)
    (hs : s.Valid cl nl) (h : adjGlobal2LocalFacial w s = .ok s') : adjLocal2GlobalFacial w s' = .ok s := by
  simp only [adjGlobal2LocalFacial, Res.bind_ok_iff, Res.assert_ok_iff, Res.ok.injEq] at h
  obtain ⟨_, hst, fs, h1, rfl⟩ := h
  have found : ∀ {lens : List Nat} {m : Map} (q v : Int), Collective lens w.rank m → Global lens q →
      mustFind m q = .ok v → 0 ≤ v ∧ m.apply (-1) v = .ok q := by
    intro lens m q v hm hq hv
    rcases hm.faithful.mustFind_eq q with ⟨v', e, h1, h2, _⟩ | ⟨_, _, e⟩
    · rw [hv] at e; cases e
      exact ⟨h1, hm.faithful.apply_of_name h2 hq.1 h1⟩
    · rw [hv] at e; cases e
  have r1 := forRanks_roundtrip _ (fun _ (f : List Int × List Int) => do
    let ns ← forRanks (fun _ x => w.node.apply (-1) x) 0 f.1
    let cs ← forRanks (fun _ x => faceCellToGlobal w.cell x) 0 f.2
    .ok (ns, cs)) _ _ _ h1 (by
    intro i f f' hf hf'
    obtain ⟨v1, v2⟩ := hs f (List.mem_of_getElem? hf)
    simp only [Res.bind_ok_iff, Res.ok.injEq] at hf' ⊢
    obtain ⟨ns, a1, cs, a2, rfl⟩ := hf'
    refine ⟨f.1, ?_, f.2, ?_, rfl⟩
    · apply forRanks_roundtrip _ _ _ _ _ a1
      intro j x y hx hy
      exact (found x y hw.node (v1 x (List.mem_of_getElem? hx)) hy).2
    · apply forRanks_roundtrip _ _ _ _ _ a2
      intro j x y hx hy
      simp only [faceCellToLocal, faceCellToGlobal] at hy ⊢
      rcases v2 x (List.mem_of_getElem? hx) with hu | hg
      · rw [if_pos hu] at hy; cases hy; rw [if_pos hu]
      · have hu : x ≠ unInit := by
          intro e; rw [e] at hg; have := hg.1; simp [unInit] at this
        rw [if_neg hu] at hy
        obtain ⟨b1, b2⟩ := found x y hw.cell hg hy
        rw [if_neg (by intro e; rw [e] at b1; simp [unInit] at b1)]
        exact b2)
  simp only [adjLocal2GlobalFacial, Res.bind_ok_iff, Res.assert_ok_iff, Res.ok.injEq]
  refine ⟨(), trivial, _, r1, ?_⟩
  rw [← hst]

/-- **C24**, faces of cells: `cell2face`. -/
theorem c2f_restored {w : Maps} {cl nl fl bl : List Nat} (hw : Setting w cl nl fl bl) (s s' : C2F)
    (hs : EachEntry (Entry fl) s.cell2face) (h : adjGlobal2LocalC2F w s = .ok s') : adjLocal2GlobalC2F w s' = .ok s := by
  simp only [adjGlobal2LocalC2F, Res.bind_ok_iff, Res.assert_ok_iff, Res.ok.injEq] at h
  obtain ⟨_, hst, c2c, h1, rfl⟩ := h
  have r1 := mapRows_roundtrip _ (fun _ x => local2Global w.face x) _ _ h1 (by
    intro row hrow j x y hx hy
    exact entry_restored hw.face hw.fits.2.2.1 x y (hs row hrow x (List.mem_of_getElem? hx)) hy)
  simp only [adjLocal2GlobalC2F, Res.bind_ok_iff, Res.assert_ok_iff, Res.ok.injEq]
  refine ⟨(), trivial, _, r1, ?_⟩
  rw [← hst]

/-- conversions without ghosts -/
theorem noSon_restored {lens : List Nat} {g : GOM} (hg : Built lens g) (hf : Fits lens) (r n : Nat)
    (hn : lens[r]? = some n) (q v : Int) (hq : Entry lens q) (hv : global2LocalNoSon g r q = .ok v) :
    local2GlobalNoSon g r n v = .ok q := by
  rcases hq with hu | hq
  · rw [global2LocalNoSon, if_pos hu] at hv; cases hv
    rw [local2GlobalNoSon, if_pos rfl, hu]
  · have hu : q ≠ unInit := by
      intro e; rw [e] at hq; have := hq.1; simp [unInit] at this
    rw [global2LocalNoSon, if_neg hu] at hv
    obtain ⟨hrl, hrn⟩ := List.getElem?_eq_some_iff.1 hn
    rcases search_eq hg q with ⟨o, ho, e⟩ | ⟨hr, e⟩
    · rw [e, Res.ok_bind] at hv
      by_cases hor : o = r
      · subst hor
        simp only [if_true] at hv
        cases hv
        obtain ⟨_, a, b⟩ := ho
        rw [local2GlobalNoSon, if_neg (by simp only [unInit]; omega), if_neg (by omega), Res.assert_true _ (by omega),
          Res.ok_bind, apply_eq hg _ hrl, if_pos (by omega)]
        congr 1; omega
      · simp only [if_neg hor] at hv
        cases hv
        rw [local2GlobalNoSon, if_neg (by simp only [unInit, Fits, Global] at *; omega), if_pos (by have := hq.1; omega)]
        congr 1; omega
    · have := hq.1; have := hq.2; omega

/-- **C24**, the inverse relations: `node2cell` and `node2bnd`. -/
theorem n2cb_restored {w : Maps} {cl nl fl bl : List Nat} (hw : Setting w cl nl fl bl) (s s' : N2CB)
    (hc : EachEntry (Entry cl) s.node2cell) (hb : EachEntry (Entry bl) s.node2bnd)
    (h : adjGlobal2LocalN2CB w s = .ok s') : adjLocal2GlobalN2CB w s' = .ok s := by
  simp only [adjGlobal2LocalN2CB, Res.bind_ok_iff, Res.assert_ok_iff, Res.ok.injEq] at h
  obtain ⟨_, hst, nc, h1, nb, h2, rfl⟩ := h
  have r1 := mapRows_roundtrip _ (fun _ x => local2Global w.cell x) _ _ h1 (by
    intro row hrow j x y hx hy
    exact entry_restored hw.cell hw.fits.1 x y (hc row hrow x (List.mem_of_getElem? hx)) hy)
  have r2 := mapRows_roundtrip _ (fun _ x => local2GlobalNoSon w.bnd w.rank w.nBnd x) _ _ h2 (by
    intro row hrow j x y hx hy
    exact noSon_restored hw.bnd hw.fits.2.2.2 _ _ hw.bndSize x y (hb row hrow x (List.mem_of_getElem? hx)) hy)
  simp only [adjLocal2GlobalN2CB, Res.bind_ok_iff, Res.assert_ok_iff, Res.ok.injEq]
  refine ⟨(), trivial, _, r1, _, r2, ?_⟩
  rw [← hst]

/-! ### histories -/

/-- a mesh whose adjacencies are all valid in global numbers -/
structure Mesh.Valid (s : Mesh) (cl nl fl bl : List Nat) : Prop where
  prim : s.prim.Valid cl nl
  fac : s.fac.Valid cl nl
  c2f : EachEntry (Entry fl) s.c2f.cell2face
  n2c : EachEntry (Entry cl) s.n2cb.node2cell
  n2b : EachEntry (Entry bl) s.n2cb.node2bnd

/-- the four states of a mesh -/
def Mesh.states (s : Mesh) : List AdjState := [s.prim.state, s.fac.state, s.c2f.state, s.n2cb.state]

/-- every group is as at the start, or is its local form -/
structure Track (w : Maps) (s₀ s : Mesh) : Prop where
  prim : s.prim = s₀.prim ∨ (s₀.prim.state = .pointToGlobal ∧ adjGlobal2LocalPrimary w s₀.prim = .ok s.prim)
  fac : s.fac = s₀.fac ∨ (s₀.fac.state = .pointToGlobal ∧ adjGlobal2LocalFacial w s₀.fac = .ok s.fac)
  c2f : s.c2f = s₀.c2f ∨ (s₀.c2f.state = .pointToGlobal ∧ adjGlobal2LocalC2F w s₀.c2f = .ok s.c2f)
  n2cb : s.n2cb = s₀.n2cb ∨ (s₀.n2cb.state = .pointToGlobal ∧ adjGlobal2LocalN2CB w s₀.n2cb = .ok s.n2cb)

theorem prim_states {w : Maps} {s s' : Primary} :
    (adjGlobal2LocalPrimary w s = .ok s' → s.state = .pointToGlobal ∧ s'.state = .pointToLocal) ∧
    (adjLocal2GlobalPrimary w s = .ok s' → s.state = .pointToLocal) := by
  constructor
  · intro h
    simp only [adjGlobal2LocalPrimary, Res.bind_ok_iff, Res.assert_ok_iff, Res.ok.injEq] at h
    obtain ⟨_, hst, _, _, _, _, _, _, _, _, rfl⟩ := h
    exact ⟨hst, rfl⟩
  · intro h
    simp only [adjLocal2GlobalPrimary, Res.bind_ok_iff, Res.assert_ok_iff, Res.ok.injEq] at h
    obtain ⟨_, hst, _⟩ := h
    exact hst

theorem fac_states {w : Maps} {s s' : Facial} :
    (adjGlobal2LocalFacial w s = .ok s' → s.state = .pointToGlobal ∧ s'.state = .pointToLocal) ∧
    (adjLocal2GlobalFacial w s = .ok s' → s.state = .pointToLocal) := by
  constructor
  · intro h
    simp only [adjGlobal2LocalFacial, Res.bind_ok_iff, Res.assert_ok_iff, Res.ok.injEq] at h
    obtain ⟨_, hst, _, _, rfl⟩ := h
    exact ⟨hst, rfl⟩
  · intro h
    simp only [adjLocal2GlobalFacial, Res.bind_ok_iff, Res.assert_ok_iff, Res.ok.injEq] at h
    obtain ⟨_, hst, _⟩ := h
    exact hst

theorem c2f_states {w : Maps} {s s' : C2F} :
    (adjGlobal2LocalC2F w s = .ok s' → s.state = .pointToGlobal ∧ s'.state = .pointToLocal) ∧
    (adjLocal2GlobalC2F w s = .ok s' → s.state = .pointToLocal) := by
  constructor
  · intro h
    simp only [adjGlobal2LocalC2F, Res.bind_ok_iff, Res.assert_ok_iff, Res.ok.injEq] at h
    obtain ⟨_, hst, _, _, rfl⟩ := h
    exact ⟨hst, rfl⟩
  · intro h
    simp only [adjLocal2GlobalC2F, Res.bind_ok_iff, Res.assert_ok_iff, Res.ok.injEq] at h
    obtain ⟨_, hst, _⟩ := h
    exact hst

theorem n2cb_states {w : Maps} {s s' : N2CB} :
    (adjGlobal2LocalN2CB w s = .ok s' → s.state = .pointToGlobal ∧ s'.state = .pointToLocal) ∧
    (adjLocal2GlobalN2CB w s = .ok s' → s.state = .pointToLocal) := by
  constructor
  · intro h
    simp only [adjGlobal2LocalN2CB, Res.bind_ok_iff, Res.assert_ok_iff, Res.ok.injEq] at h
    obtain ⟨_, hst, _, _, _, _, rfl⟩ := h
    exact ⟨hst, rfl⟩
  · intro h
    simp only [adjLocal2GlobalN2CB, Res.bind_ok_iff, Res.assert_ok_iff, Res.ok.injEq] at h
    obtain ⟨_, hst, _⟩ := h
    exact hst

/-- the common step of the four groups -/
theorem track_toLocal {σ : Type} (st : σ → AdjState) (f : σ → Res σ) {s₀ s s' : σ}
    (hf : ∀ a b, f a = .ok b → st a = .pointToGlobal ∧ st b = .pointToLocal)
    (ht : s = s₀ ∨ (st s₀ = .pointToGlobal ∧ f s₀ = .ok s)) (h : f s = .ok s') :
    s' = s₀ ∨ (st s₀ = .pointToGlobal ∧ f s₀ = .ok s') := by
  rcases ht with rfl | ⟨_, h2⟩
  · exact Or.inr ⟨(hf _ _ h).1, h⟩
  · have a := (hf _ _ h2).2
    have b := (hf _ _ h).1
    rw [a] at b; cases b

theorem track_toGlobal {σ : Type} (st : σ → AdjState) (f f' : σ → Res σ) {s₀ s s' : σ}
    (h0 : st s₀ ≠ .pointToLocal) (hf' : ∀ a b, f' a = .ok b → st a = .pointToLocal)
    (hr : ∀ b, f s₀ = .ok b → f' b = .ok s₀)
    (ht : s = s₀ ∨ (st s₀ = .pointToGlobal ∧ f s₀ = .ok s)) (h : f' s = .ok s') : s' = s₀ := by
  rcases ht with rfl | ⟨_, h2⟩
  · exact absurd (hf' _ _ h) h0
  · have := hr _ h2
    rw [h] at this; cases this; rfl

/-- **C24**, whole histories: after any sequence of conversion calls that ends with the states it
started from, every adjacency is what it was at the start. -/
theorem history_restores {w : Maps} {cl nl fl bl : List Nat} (hw : Setting w cl nl fl bl) (s₀ s : Mesh) (cs : List Conv)
    (hv : s₀.Valid cl nl fl bl) (hl : AdjState.pointToLocal ∉ s₀.states)
    (h : convertAll w s₀ cs = .ok s) (he : s.states = s₀.states) : s = s₀ := by
  simp only [Mesh.states, List.mem_cons, List.not_mem_nil, or_false, not_or] at hl
  have key : ∀ (cs : List Conv) (s' : Mesh), Track w s₀ s' → convertAll w s' cs = .ok s → Track w s₀ s := by
    intro cs
    induction cs with
    | nil => intro s' ht h; simp only [convertAll, Res.ok.injEq] at h; exact h ▸ ht
    | cons c cs ih =>
      intro s' ht h
      simp only [convertAll, Res.bind_ok_iff] at h
      obtain ⟨s1, h1, h2⟩ := h
      refine ih s1 ?_ h2
      obtain ⟨t1, t2, t3, t4⟩ := ht
      cases c <;> simp only [convert, Res.bind_ok_iff, Res.ok.injEq] at h1 <;> obtain ⟨p, hp, rfl⟩ := h1
      · exact ⟨track_toLocal Primary.state (adjGlobal2LocalPrimary w) (fun a b => prim_states.1) t1 hp, t2, t3, t4⟩
      · exact ⟨Or.inl (track_toGlobal Primary.state (adjGlobal2LocalPrimary w) (adjLocal2GlobalPrimary w)
          (fun e => hl.1 e.symm) (fun a b => prim_states.2) (fun b hb => primary_restored hw _ _ hv.prim hb) t1 hp), t2, t3, t4⟩
      · exact ⟨t1, track_toLocal Facial.state (adjGlobal2LocalFacial w) (fun a b => fac_states.1) t2 hp, t3, t4⟩
      · exact ⟨t1, Or.inl (track_toGlobal Facial.state (adjGlobal2LocalFacial w) (adjLocal2GlobalFacial w)
          (fun e => hl.2.1 e.symm) (fun a b => fac_states.2) (fun b hb => facial_restored hw _ _ hv.fac hb) t2 hp), t3, t4⟩
      · exact ⟨t1, t2, track_toLocal C2F.state (adjGlobal2LocalC2F w) (fun a b => c2f_states.1) t3 hp, t4⟩
      · exact ⟨t1, t2, Or.inl (track_toGlobal C2F.state (adjGlobal2LocalC2F w) (adjLocal2GlobalC2F w)
          (fun e => hl.2.2.1 e.symm) (fun a b => c2f_states.2) (fun b hb => c2f_restored hw _ _ hv.c2f hb) t3 hp), t4⟩
      · exact ⟨t1, t2, t3, track_toLocal N2CB.state (adjGlobal2LocalN2CB w) (fun a b => n2cb_states.1) t4 hp⟩
      · exact ⟨t1, t2, t3, Or.inl (track_toGlobal N2CB.state (adjGlobal2LocalN2CB w) (adjLocal2GlobalN2CB w)
          (fun e => hl.2.2.2 e.symm) (fun a b => n2cb_states.2) (fun b hb => n2cb_restored hw _ _ hv.n2c hv.n2b hb) t4 hp)⟩
  obtain ⟨t1, t2, t3, t4⟩ := key cs s₀ ⟨Or.inl rfl, Or.inl rfl, Or.inl rfl, Or.inl rfl⟩ h
  simp only [Mesh.states, List.cons.injEq, and_true] at he
  have e1 : s.prim = s₀.prim := by
    rcases t1 with t | ⟨a, b⟩
    · exact t
    · have := (prim_states.1 b).2; rw [he.1, a] at this; cases this
  have e2 : s.fac = s₀.fac := by
    rcases t2 with t | ⟨a, b⟩
    · exact t
    · have := (fac_states.1 b).2; rw [he.2.1, a] at this; cases this
  have e3 : s.c2f = s₀.c2f := by
    rcases t3 with t | ⟨a, b⟩
    · exact t
    · have := (c2f_states.1 b).2; rw [he.2.2.1, a] at this; cases this
  have e4 : s.n2cb = s₀.n2cb := by
    rcases t4 with t | ⟨a, b⟩
    · exact t
    · have := (n2cb_states.1 b).2; rw [he.2.2.2, a] at this; cases this
  cases s; cases s₀; simp_all

/-! ### a negative number that is not the mark -/

/-- The convention matters: `-1`, which other tables use for "none", is not restored.  It becomes local
entry `0` and comes back as the rank's first entry. -/
theorem minus_one_not_restored {lens : List Nat} {r : Nat} {m : Map} (hm : Collective lens r m) (h0 : 0 < m.mainSize) :
    global2Local m (-1) = .ok 0 ∧ local2Global m 0 = .ok (before lens r : Int) := by
  have hf := hm.faithful
  constructor
  · rw [global2Local, if_neg (by decide)]
    rcases hf.searchAppend (-1) with ⟨ho, e⟩ | ⟨ho, k, o, hk, e⟩ | ⟨ho, hq, e⟩
    · obtain ⟨_, a, _⟩ := ho; omega
    · have := (hf.loc.range _ (List.mem_of_getElem? hk)).1; omega
    · rw [e]; rfl
  · rw [local2Global, if_neg (by decide), if_neg (by omega), hf.apply_main, if_pos (by omega), if_pos (by omega),
      Int.add_zero]

/-! ### a concrete case: rank 0 of three ranks with 2, 0 and 3 entries; it keeps copies of 2 and 4, not of 3 -/

def demoFacePush : List (List Int × List Nat) := [([1], [0, 0, 0, 1]), ([], [0, 0, 0, 0]), ([0, 2], [0, 2, 2, 2])]

def demoFaceMap : Map := ⟨0, 2, [0, 0, 2], [2, 4], [0, 0, 0, 2], [0, 0, 1], [0, 0, 0, 1], [1]⟩

theorem demo_face : Collective [2, 0, 3] 0 demoFaceMap := by
  refine .push demoG demoFacePush _ demo_searches.1 rfl (by decide) ?_ ?_ rfl rfl
  · intro s p hp l hl
    match s, hp with
    | 0, hp => cases hp; simp at hl; subst hl; exact ⟨by omega, 2, rfl, by omega⟩
    | 1, hp => cases hp; simp at hl
    | 2, hp =>
      cases hp
      simp at hl
      rcases hl with rfl | rfl
      · exact ⟨by omega, 3, rfl, by omega⟩
      · exact ⟨by omega, 3, rfl, by omega⟩
    | n + 3, hp => simp [demoFacePush] at hp
  · intro p hp s
    have hlen : p.2.length = 4 := by
      revert p; decide
    by_cases hs : s < 3
    · match s, hs with
      | 0, _ => revert p; decide
      | 1, _ => revert p; decide
      | 2, _ => revert p; decide
    · have e : p.2[s + 1]? = none := List.getElem?_eq_none (by omega)
      unfold segment
      split
      · rename_i h; rw [e] at h; cases h
      · exact List.Pairwise.nil

def demoMapsW : Maps := ⟨demoMaps[0]'(by decide), demoMaps[0]'(by decide), demoFaceMap, demoG, 0, 2⟩

theorem demo_setting : Setting demoMapsW [2, 0, 3] [2, 0, 3] [2, 0, 3] [2, 0, 3] := by
  have hc : Collective [2, 0, 3] 0 (demoMaps[0]'(by decide)) :=
    .pull demoG demoReqs demoMaps demo_searches.1 rfl demo_maps rfl
  have hf : Fits [2, 0, 3] := by unfold Fits; decide
  exact ⟨hc, hc, demo_face, demo_searches.1, rfl, hf, hf, hf, hf⟩

def demoMesh : Mesh :=
  ⟨⟨.pointToGlobal, [[1, 4, 3], [0, unInit]], [[0, 3]], [[0, 1, 4], [2, 4]], [[1, 0]]⟩,
    ⟨.pointToGlobal, [([0, 4], [1, unInit]), ([2, 1], [0, 2])]⟩,
    ⟨.pointToGlobal, [[0, 1, 4], [3, 2, unInit]]⟩,
    ⟨.pointToGlobal, [[0, 3], [2]], [[1], [4]]⟩⟩

theorem demo_valid : demoMesh.Valid [2, 0, 3] [2, 0, 3] [2, 0, 3] [2, 0, 3] := by
  have dec : ∀ q : Int, (q = unInit ∨ (0 ≤ q ∧ q < 5)) → Entry [2, 0, 3] q := by
    intro q h; rcases h with h | h
    · exact Or.inl h
    · exact Or.inr h
  have all : ∀ rows : List (List Int), (∀ row ∈ rows, ∀ q ∈ row, q = unInit ∨ (0 ≤ q ∧ q < 5)) → EachEntry (Entry [2, 0, 3]) rows :=
    fun rows h row hr q hq => dec q (h row hr q hq)
  refine ⟨⟨all _ (by decide), all _ (by decide), all _ (by decide), all _ (by decide)⟩, ?_, all _ (by decide),
    all _ (by decide), all _ (by decide)⟩
  intro f hf
  constructor
  · intro q hq
    show (0 : Int) ≤ q ∧ q < 5
    revert hq q
    revert f; decide
  · intro q hq
    apply dec q
    revert hq q
    revert f; decide

/-- the primary conversion of the example succeeds, and the whole history restores the mesh -/
example : (∃ s', adjGlobal2LocalPrimary demoMapsW demoMesh.prim = .ok s' ∧ s'.cell2node = [[0, 1, 3], [2, 3]] ∧
    adjLocal2GlobalPrimary demoMapsW s' = .ok demoMesh.prim) := by
  have hp : ∀ q : Int, q = 0 ∨ q = 1 ∨ q = 2 ∨ q = 4 → Present [2, 0, 3] 0 (demoMaps[0]'(by decide)).ghostIndex q := by
    rintro q (rfl | rfl | rfl | rfl)
    · exact ⟨by decide, Or.inl ⟨by decide, by decide, by decide⟩⟩
    · exact ⟨by decide, Or.inl ⟨by decide, by decide, by decide⟩⟩
    · exact ⟨by decide, Or.inr (by decide)⟩
    · exact ⟨by decide, Or.inr (by decide)⟩
  obtain ⟨h1, h2, _⟩ := primary_to_local demo_setting demoMesh.prim demo_valid.prim
  obtain ⟨s', hs'⟩ := h2.2 ⟨rfl, fun row hr q hq => hp q (by revert hq q; revert row; decide),
    fun row hr q hq => hp q (by revert hq q; revert row; decide), fun row hr q hq => hp q (by
      have : row = [0, 3] := by simpa [demoMesh] using hr
      subst this
      simp at hq
      exact Or.inl hq.symm)⟩
  refine ⟨s', hs', ?_, primary_restored demo_setting _ _ demo_valid.prim hs'⟩
  simp only [adjGlobal2LocalPrimary, Res.bind_ok_iff, Res.assert_ok_iff, Res.ok.injEq] at hs'
  obtain ⟨_, _, _, _, _, _, c2n, h3, _, _, rfl⟩ := hs'
  have e : mapRows (fun _ x => nonneg (global2Local demoMapsW.node) x) demoMesh.prim.cell2node = .ok [[0, 1, 3], [2, 3]] := by
    simp [mapRows, forRanks, nonneg, global2Local, demoMesh, demoMapsW, demoMaps, Map.searchAppend, Map.searchInMain,
      Map.searchInAllGhost, lowerBound, lowerBoundGo, idx, unInit, Res.assert]
  rw [h3] at e; cases e; rfl

/-- a boundary numbered on another rank is restored as well -/
example : ∃ s', adjGlobal2LocalN2CB demoMapsW demoMesh.n2cb = .ok s' ∧ s'.node2bnd = [[1], [-5]] ∧
    adjLocal2GlobalN2CB demoMapsW s' = .ok demoMesh.n2cb := by
  have e1 : mapRows (fun _ x => global2Local demoMapsW.cell x) demoMesh.n2cb.node2cell = .ok [[0, -4], [2]] := by
    simp [mapRows, forRanks, global2Local, demoMesh, demoMapsW, demoMaps, Map.searchAppend, Map.searchInMain,
      Map.searchInAllGhost, lowerBound, lowerBoundGo, idx, unInit, Res.assert]
  have e2 : mapRows (fun _ x => global2LocalNoSon demoMapsW.bnd demoMapsW.rank x) demoMesh.n2cb.node2bnd = .ok [[1], [-5]] := by
    simp [mapRows, forRanks, global2LocalNoSon, demoMesh, demoMapsW, demoG, GOM.search, lowerBound, lowerBoundGo, idx, unInit]
  have h : adjGlobal2LocalN2CB demoMapsW demoMesh.n2cb = .ok ⟨.pointToLocal, [[0, -4], [2]], [[1], [-5]]⟩ := by
    simp only [adjGlobal2LocalN2CB, e1, e2, Res.ok_bind]; rfl
  exact ⟨_, h, rfl, n2cb_restored demo_setting _ _ demo_valid.n2c demo_valid.n2b h⟩

/-- the face conversions of the example succeed -/
example : ∃ s₁ s₂, adjGlobal2LocalFacial demoMapsW demoMesh.fac = .ok s₁ ∧ adjLocal2GlobalFacial demoMapsW s₁ = .ok demoMesh.fac ∧
    adjGlobal2LocalC2F demoMapsW demoMesh.c2f = .ok s₂ ∧ s₂.cell2face = [[0, 1, 3], [-4, 2, unInit]] ∧
    adjLocal2GlobalC2F demoMapsW s₂ = .ok demoMesh.c2f := by
  have e1 : forRanks (fun _ (f : List Int × List Int) => do
      let ns ← forRanks (fun _ x => mustFind demoMapsW.node x) 0 f.1
      let cs ← forRanks (fun _ x => faceCellToLocal demoMapsW.cell x) 0 f.2
      .ok (ns, cs)) 0 demoMesh.fac.faces = .ok [([0, 3], [1, unInit]), ([2, 1], [0, 2])] := by
    simp [forRanks, mustFind, faceCellToLocal, demoMesh, demoMapsW, demoMaps, Map.searchAppend, Map.searchInMain,
      Map.searchInAllGhost, lowerBound, lowerBoundGo, idx, unInit, Res.assert]
  have e2 : mapRows (fun _ x => global2Local demoMapsW.face x) demoMesh.c2f.cell2face = .ok [[0, 1, 3], [-4, 2, unInit]] := by
    simp [mapRows, forRanks, global2Local, demoMesh, demoMapsW, demoFaceMap, Map.searchAppend, Map.searchInMain,
      Map.searchInAllGhost, lowerBound, lowerBoundGo, idx, unInit, Res.assert]
  have h1 : adjGlobal2LocalFacial demoMapsW demoMesh.fac = .ok ⟨.pointToLocal, [([0, 3], [1, unInit]), ([2, 1], [0, 2])]⟩ := by
    simp only [adjGlobal2LocalFacial, e1, Res.ok_bind]; rfl
  have h2 : adjGlobal2LocalC2F demoMapsW demoMesh.c2f = .ok ⟨.pointToLocal, [[0, 1, 3], [-4, 2, unInit]]⟩ := by
    simp only [adjGlobal2LocalC2F, e2, Res.ok_bind]; rfl
  exact ⟨_, _, h1, facial_restored demo_setting _ _ demo_valid.fac h1, h2, rfl,
    c2f_restored demo_setting _ _ demo_valid.c2f h2⟩

end DNDSR.MeshAdj
