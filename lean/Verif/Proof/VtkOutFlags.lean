import Verif.Proof.VtkOutNeed

namespace DNDSR.VtkOut

open DNDSR.IMap DNDSR.Elem DNDSR.Bits DNDSR.Faces DNDSR.MeshAdj

variable {periodic : Bool} {gn : GOM} {cl nl : List Nat} {G : List Cell} {X : Nat → Per.V3} {ranks : List Rk}

theorem localName_own {lens : List Nat} {r j : Nat} {gh : List Int} {q : Int} (hj : ∃ n, lens[r]? = some n ∧ j < n)
    (hq : Global lens q) (h : LocalName lens r gh q j) : q = before lens r + j := by
  obtain ⟨n, h1, h2⟩ := hj
  rcases h with ⟨_, h⟩ | ⟨_, k, _, n', hn', h⟩ | ⟨_, _, h⟩
  · omega
  · rw [h1] at hn'; cases hn'; omega
  · have := hq.1; omega

theorem localName_ghost {lens : List Nat} {r n k : Nat} {gh : List Int} {q : Int} (hn : lens[r]? = some n)
    (hq : Global lens q) (h : LocalName lens r gh q ((n + k : Nat) : Int)) : gh[k]? = some q := by
  obtain ⟨h1, h2⟩ := List.getElem?_eq_some_iff.1 hn
  rcases h with ⟨⟨_, a, b⟩, h⟩ | ⟨_, k', hk, n', hn', h⟩ | ⟨_, _, h⟩
  · omega
  · rw [hn] at hn'; cases hn'
    rw [show k = k' by omega]; exact hk
  · have := hq.1; omega

theorem localName_inj {lens : List Nat} {r n : Nat} {gh : List Int} {q q' v : Int} (hn : lens[r]? = some n)
    (hq : Global lens q) (hq' : Global lens q') (h : LocalName lens r gh q v) (h' : LocalName lens r gh q' v) (h0 : 0 ≤ v) : q = q' := by
  obtain ⟨w, rfl⟩ := Int.eq_ofNat_of_zero_le h0
  by_cases hw : w < n
  · rw [localName_own ⟨n, hn, hw⟩ hq h, localName_own ⟨n, hn, hw⟩ hq' h']
  · obtain ⟨k, rfl⟩ := Nat.exists_eq_add_of_le (Nat.le_of_not_lt hw)
    have h1 := localName_ghost hn hq h
    rw [localName_ghost hn hq' h'] at h1
    exact (Option.some.inj h1).symm

/-- a cell of the mesh and the rank that holds it -/
theorem OnMesh.find (W : OnMesh periodic gn cl nl G X ranks) {i : Nat} {C : Cell} (h : G[i]? = some C) :
    ∃ r s k c, ranks[r]? = some s ∧ s.cells[k]? = some c ∧ i = before cl r + k := by
  have hi : i < cl.sum := by rw [← W.total]; exact (List.getElem?_eq_some_iff.1 h).1
  obtain ⟨r, hr, h1, h2⟩ := owns_exists (lens := cl) (q := (i : Int)) (by omega) (by omega)
  have hrr : r < ranks.length := by rw [W.ranks_len, ← W.cl_len]; exact hr
  have hs : ranks[r]? = some ranks[r] := List.getElem?_eq_getElem hrr
  have hc := (List.getElem?_eq_some_iff.1 (W.cells r _ hs).1).2
  have hk : i - before cl r < ranks[r].cells.length := by rw [← hc]; omega
  exact ⟨r, ranks[r], i - before cl r, _, hs, List.getElem?_eq_getElem hk, by omega⟩

theorem seen_iff (W : OnMesh true gn cl nl G X ranks) (q : Nat) (bb : Mark) (hq : Global nl q) :
    Seen true G q bb ↔ ∃ t st, ranks[t]? = some st ∧ ∃ c ∈ st.cells, ∃ e ∈ c.nodes.zip c.pbi, e.2 = bb ∧ 0 ≤ e.1 ∧
      LocalName nl t st.map.ghostIndex q e.1 := by
  constructor
  · rintro ⟨C, hC, j, hj, hm⟩
    obtain ⟨i, hi⟩ := List.mem_iff_getElem?.1 hC
    obtain ⟨r, s, k, c, hs, hk, rfl⟩ := W.find hi
    obtain ⟨C', hC', h1, h2, h3, h4⟩ := (W.cells r s hs).2 k c hk
    rw [hi] at hC'; cases hC'
    have hjl : j < c.nodes.length := by rw [h3]; exact (List.getElem?_eq_some_iff.1 hj).1
    obtain ⟨h5, h6⟩ := h4 j _ _ hj (List.getElem?_eq_getElem hjl)
    have hp : c.pbi.length = c.nodes.length := (W.row hs (List.mem_of_getElem? hk)).1
    have hjp : j < c.pbi.length := by omega
    refine ⟨r, s, hs, c, List.mem_of_getElem? hk, (c.nodes[j], c.pbi[j]), ?_, ?_, h5, h6⟩
    · exact List.mem_of_getElem? (List.getElem?_zip_eq_some.2 ⟨List.getElem?_eq_getElem hjl, List.getElem?_eq_getElem hjp⟩)
    · rw [← hm, mark, if_pos rfl, List.getD_eq_getElem?_getD, ← h2, List.getElem?_eq_getElem hjp]; rfl
  · rintro ⟨t, st, hst, c, hc, e, he, rfl, h0, hl⟩
    obtain ⟨k, hk⟩ := List.mem_iff_getElem?.1 hc
    obtain ⟨C, hC, h1, h2, h3, h4⟩ := (W.cells t st hst).2 k c hk
    obtain ⟨j, hj⟩ := List.mem_iff_getElem?.1 he
    obtain ⟨hj1, hj2⟩ := List.getElem?_zip_eq_some.1 hj
    have hjl : j < C.nodes.length := by rw [← h3]; exact (List.getElem?_eq_some_iff.1 hj1).1
    obtain ⟨_, h6⟩ := h4 j _ _ (List.getElem?_eq_getElem hjl) hj1
    obtain ⟨_, _, g3, _⟩ := W.good C (List.mem_of_getElem? hC)
    have := localName_inj (W.coords t st hst).1 hq (g3 _ (List.getElem_mem hjl)) hl h6 h0
    refine ⟨C, List.mem_of_getElem? hC, j, by rw [List.getElem?_eq_getElem hjl, this], ?_⟩
    rw [mark, if_pos rfl, List.getD_eq_getElem?_getD, ← h2, hj2]; rfl

/-- an entry of a row is the name of a node some cell sees under that mark -/
theorem entry_seen (W : OnMesh true gn cl nl G X ranks) {t : Nat} {st : Rk} (hst : ranks[t]? = some st) {c : Cell} (hc : c ∈ st.cells)
    {e : Int × Mark} (he : e ∈ c.nodes.zip c.pbi) : ∃ q : Nat, Global nl q ∧ LocalName nl t st.map.ghostIndex q e.1 ∧ Seen true G q e.2 := by
  obtain ⟨k, hk⟩ := List.mem_iff_getElem?.1 hc
  obtain ⟨C, hC, h1, h2, h3, h4⟩ := (W.cells t st hst).2 k c hk
  obtain ⟨j, hj⟩ := List.mem_iff_getElem?.1 he
  obtain ⟨hj1, hj2⟩ := List.getElem?_zip_eq_some.1 hj
  have hjl : j < C.nodes.length := by rw [← h3]; exact (List.getElem?_eq_some_iff.1 hj1).1
  obtain ⟨h5, h6⟩ := h4 j _ _ (List.getElem?_eq_getElem hjl) hj1
  obtain ⟨_, _, g3, _⟩ := W.good C (List.mem_of_getElem? hC)
  have hg := g3 _ (List.getElem_mem hjl)
  obtain ⟨q, hq⟩ := Int.eq_ofNat_of_zero_le hg.1
  rw [hq] at hg h6
  refine ⟨q, hg, h6, C, List.mem_of_getElem? hC, j, by rw [List.getElem?_eq_getElem hjl, hq], ?_⟩
  rw [mark, if_pos rfl, List.getD_eq_getElem?_getD, ← h2, hj2]; rfl

theorem bitAt_take (a : List Nat) (n j b : Nat) (h : j < n) : bitAt (a.take n) j b = bitAt a j b := by
  rw [bitAt, bitAt, List.getElem?_take_of_lt h]

/-- after the exchange the owner of a node knows every mark under which a cell sees it -/
theorem need_spec (W : OnMesh true gn cl nl G X ranks) : ∃ flags, need ranks = .ok flags ∧ flags.length = ranks.length ∧
    ∀ (r : Nat) (s : Rk) (f : List Nat), ranks[r]? = some s → flags[r]? = some f → f.length = s.coords.length ∧
      ∀ j b, j < s.coords.length → (bitAt f j b = true ↔ b = 0 ∨ ∃ bb : Mark, bb.toNat = b ∧ Seen true G (before nl r + j) bb) := by
  obtain ⟨loc, e1, l1, s1⟩ := N2C.forRanks_all (fun _ s => needLocal s) (fun r s a => needLocal s = .ok a) ranks
    (fun r s hs => by
      obtain ⟨a, ha, _⟩ := needLocal_spec W hs
      exact ⟨a, ha, ha⟩)
  have hloc : ∀ (r : Nat) (s : Rk), ranks[r]? = some s → ∃ a, loc[r]? = some a ∧ a.length = s.coords.length + s.map.ghostIndex.length ∧
      ∀ j b, j < a.length → (bitAt a j b = true ↔ b = 0 ∨
        ∃ c ∈ s.cells, ∃ e ∈ c.nodes.zip c.pbi, e.1 = (j : Int) ∧ e.2.toNat = b) := by
    intro r s hs
    have hr := (List.getElem?_eq_some_iff.1 hs).1
    have ha : loc[r]? = some (loc[r]'(by omega)) := List.getElem?_eq_getElem _
    obtain ⟨a, h1, h2⟩ := needLocal_spec W hs
    rw [s1 r s _ hs ha] at h1; cases h1
    exact ⟨_, ha, h2⟩
  generalize hsons : (ranks.zip loc).map (fun p => p.2.drop p.1.coords.length) = sons
  have hsl : sons.length = ranks.length := by rw [← hsons]; simp; omega
  have hson : ∀ (r : Nat) (s : Rk) (a : List Nat), ranks[r]? = some s → loc[r]? = some a → sons[r]? = some (a.drop s.coords.length) := by
    intro r s a h1 h2
    rw [← hsons, List.getElem?_map, show (ranks.zip loc)[r]? = some (s, a) from List.getElem?_zip_eq_some.2 ⟨h1, h2⟩]; rfl
  obtain ⟨gs, pmaps, past, a1, a2, a3, a4, a5⟩ := past_spec W sons hsl (by
    intro r s f h1 h2
    obtain ⟨a, h3, h4, _⟩ := hloc r s h1
    rw [hson r s a h1 h3] at h2; cases h2
    rw [List.length_drop]; omega)
  have hlast : ∀ (r : Nat) (x : (Rk × List Nat) × List Nat), ((ranks.zip loc).zip past)[r]? = some x →
      ∃ f, merge x.1.1.map x.2 x.1.1.map.pushingIndexGlobal (x.1.2.take x.1.1.coords.length) = .ok f ∧
      f.length = x.1.1.coords.length ∧ ∀ j b, j < x.1.1.coords.length → (bitAt f j b = true ↔ b = 0 ∨
        ∃ bb : Mark, bb.toNat = b ∧ Seen true G (before nl r + j) bb) := by
    rintro r ⟨⟨s, a⟩, p⟩ hx
    obtain ⟨hx1, hp⟩ := List.getElem?_zip_eq_some.1 hx
    obtain ⟨hs, ha⟩ := List.getElem?_zip_eq_some.1 hx1
    simp only at hs ha hp ⊢
    obtain ⟨a', ha', hal, hab⟩ := hloc r s hs
    rw [ha] at ha'; cases ha'
    obtain ⟨Z, z1, z2, z3⟩ := a5 r s hs
    rw [hp] at z1; cases z1
    have hn := (W.coords r s hs).1
    obtain ⟨f, f1, f2, f3⟩ := merge_spec (W.faithful hs) Z (a.take s.coords.length) (fun z hz => ((z3 z).1 hz).1)
      (by rw [List.length_take, hn]; congr 1; omega)
    rw [List.length_take] at f2
    refine ⟨f, by rw [z2]; exact f1, by omega, fun j b hj => ?_⟩
    have hrl : r < nl.length := by rw [← W.ranks_len]; exact (List.getElem?_eq_some_iff.1 hs).1
    have hown : Owns nl r ((before nl r + j : Nat) : Int) := ⟨hrl, by omega, by rw [(List.getElem?_eq_some_iff.1 hn).2]; omega⟩
    have hglob : Global nl ((before nl r + j : Nat) : Int) := owns_range hown
    rw [f3, bitAt_take _ _ _ _ hj, hab j b (by omega)]
    constructor
    · rintro ((rfl | ⟨c, hc, e, he, e1, e2⟩) | ⟨z, hz, e1, e2⟩)
      · exact Or.inl rfl
      · obtain ⟨q, q1, q2, q3⟩ := entry_seen W hs hc he
        rw [e1] at q2
        have := localName_own ⟨_, hn, hj⟩ q1 q2
        exact Or.inr ⟨e.2, e2, by rw [show before nl r + j = q by omega]; exact q3⟩
      · obtain ⟨ho, t, st, g, h1, h2, h3⟩ := (z3 z).1 hz
        obtain ⟨at', b1, b2, b3⟩ := hloc t st h1
        rw [hson t st at' h1 b1] at h2; cases h2
        obtain ⟨k, hk⟩ := List.mem_iff_getElem?.1 h3
        obtain ⟨k1, k2⟩ := List.getElem?_zip_eq_some.1 hk
        rw [List.getElem?_drop] at k2
        have hkl := (List.getElem?_eq_some_iff.1 k2).1
        have hb := b3 (st.coords.length + k) b hkl
        rw [bitAt, k2, Option.getD_some] at hb
        rcases hb.1 e2 with rfl | ⟨c, hc, e, he, e3, e4⟩
        · exact Or.inl rfl
        · obtain ⟨q, q1, q2, q3⟩ := entry_seen W h1 hc he
          rw [e3] at q2
          have := localName_ghost (W.coords t st h1).1 q1 q2
          rw [k1, e1] at this
          have := Option.some.inj this
          exact Or.inr ⟨e.2, e4, by rw [show before nl r + j = q by omega]; exact q3⟩
    · rintro (rfl | ⟨bb, rfl, hseen⟩)
      · exact Or.inl (Or.inl rfl)
      · obtain ⟨t, st, h1, c, hc, e, he, rfl, h0, hl⟩ := (seen_iff W _ _ hglob).1 hseen
        rcases hl with ⟨ho, hv⟩ | ⟨ho, k, hk, n, hnt, hv⟩ | ⟨_, _, hv⟩
        · have := owns_unique ho hown
          subst this
          rw [hs] at h1; cases h1
          exact Or.inl (Or.inr ⟨c, hc, e, he, by rw [hv]; push_cast; omega, rfl⟩)
        · obtain ⟨at', b1, b2, b3⟩ := hloc t st h1
          rw [(W.coords t st h1).1] at hnt; cases hnt
          have hkl := (List.getElem?_eq_some_iff.1 hk).1
          have hlt : st.coords.length + k < at'.length := by omega
          refine Or.inr ⟨(((before nl r + j : Nat) : Int), at'[st.coords.length + k]), (z3 _).2 ⟨hown, t, st, _, h1, hson t st at' h1 b1, ?_⟩, by push_cast; rfl, ?_⟩
          · refine List.mem_of_getElem? (i := k) (List.getElem?_zip_eq_some.2 ⟨hk, ?_⟩)
            rw [List.getElem?_drop, List.getElem?_eq_getElem hlt]
          · have hb := (b3 (st.coords.length + k) e.2.toNat hlt).2 (Or.inr ⟨c, hc, e, he, by rw [hv]; push_cast; rfl, rfl⟩)
            rw [bitAt, List.getElem?_eq_getElem hlt, Option.getD_some] at hb
            exact hb
        · omega
  obtain ⟨flags, d1, d2, d3⟩ := N2C.forRanks_all (fun _ (p : (Rk × List Nat) × List Nat) =>
    merge p.1.1.map p.2 p.1.1.map.pushingIndexGlobal (p.1.2.take p.1.1.coords.length)) _ _ hlast
  have hzl : ((ranks.zip loc).zip past).length = ranks.length := by
    rw [List.length_zip, List.length_zip]; omega
  refine ⟨flags, ?_, by omega, ?_⟩
  · rw [need, e1, Res.ok_bind]
    simp only [hsons]
    rw [a1, Res.ok_bind, a2, Res.ok_bind, a3, Res.ok_bind, d1]
  · intro r s f hs hf
    obtain ⟨a, ha, _⟩ := hloc r s hs
    have hr := (List.getElem?_eq_some_iff.1 hs).1
    have hp : past[r]? = some (past[r]'(by omega)) := List.getElem?_eq_getElem _
    exact d3 r ((s, a), past[r]'(by omega)) f (List.getElem?_zip_eq_some.2 ⟨List.getElem?_zip_eq_some.2 ⟨hs, ha⟩, hp⟩) hf

end DNDSR.VtkOut
