import Verif.Proof.TransDeliver

/-! The in-situ-pack pull for the layouts without padding. -/

namespace DNDSR.Tran

open DNDSR.Arr hiding Array
open DNDSR.IMap

variable {α : Type}

/-- layouts whose storage has no unused slots -/
def NoPad (ty : Ty) : Prop := ty.layout = .csr ∨ ty.layout = .fixed ∨ ty.layout = .staticFixed

/-- row `i` -/
def rowOf (ty : Ty) (a : Arr.Array α) (i : Nat) : List α := (rowsOf ty a)[i]?.getD []

theorem rowOf_get {ty : Ty} {a : Arr.Array α} (h : Inv ty a) (i : Nat) (hi : i < a.size) :
    (rowsOf ty a)[i]? = some (rowOf ty a i) ∧ rowSize ty a (i : Int) = .ok (rowOf ty a i).length := by
  obtain ⟨row, h1, h2⟩ := rowSize_eq h i hi
  rw [rowOf, h1]; exact ⟨rfl, h2⟩

theorem noPad_slen {ty : Ty} (hl : NoPad ty) (a : Arr.Array α) (i : Nat) : slenOf ty a i = lenOf ty a i := by
  rcases hl with h | h | h
  · rw [lenOf_csr h]
  · rw [lenOf_fixed (Or.inl h), slenOf_table (by simp [h])]
  · rw [lenOf_fixed (Or.inr h), slenOf_table (by simp [h])]

theorem Flat.rowOf_eq {ty : Ty} (hl : NoPad ty) {a : Arr.Array α} (h : Flat ty a) (i : Nat) (hi : i < a.size) :
    rowOf ty a i = srow ty a i ∧ (rowOf ty a i).length = slenOf ty a i := by
  have h1 := h.row i hi
  have h2 := h.srow_length i hi
  rw [rowOf, h1, Option.getD_some, List.take_of_length_le (by rw [h2, noPad_slen hl]; exact Nat.le_refl _)]
  exact ⟨rfl, h2⟩

theorem rowPtr_any {ty : Ty} {a : Arr.Array α} (h : Inv ty a) (i : Nat) (hi : i < a.size) :
    (isUnc ty a → rowPtr ty a (i : Int) = .ok none) ∧
    (¬ isUnc ty a → rowPtr ty a (i : Int) = .ok (some (startOf ty a i))) := by
  constructor
  · intro hu
    have h1 : ((i : Int) ≤ a.size ∧ (i : Int) ≥ 0) := by omega
    have h2 : (i : Int) < a.size := by omega
    simp only [rowPtr]
    rw [Res.assert_true _ h1, Res.ok_bind]
    simp only [hu.1, hu.2]
    rw [if_neg (by simp), if_neg (by omega), Res.assert_true _ h2, Res.ok_bind, Int.toNat_natCast,
      vat_ok _ _ (by rw [(h.unc hu).1]; exact hi), Res.ok_bind]
  · intro hu
    exact Flat.rowPtr ⟨h, fun _ => hu⟩ i (by omega) (by omega)

theorem rowPtr_zero {ty : Ty} {a : Arr.Array α} (h : Inv ty a) : ∃ p, rowPtr ty a 0 = .ok p := by
  rcases Nat.eq_zero_or_pos a.size with h0 | h0
  · obtain ⟨p, hp, _⟩ := rowPtr_empty h h0
    exact ⟨p, hp⟩
  · by_cases hu : isUnc ty a
    · exact ⟨_, (rowPtr_any h 0 h0).1 hu⟩
    · exact ⟨_, (rowPtr_any h 0 h0).2 hu⟩

theorem packRow_eq {ty : Ty} (hl : NoPad ty) {a : Arr.Array α} (h : Inv ty a) (i : Nat) (hi : i < a.size) :
    packRow ty a (i : Int) = .ok (rowOf ty a i) := by
  obtain ⟨h1, h2⟩ := rowOf_get h i hi
  simp only [packRow, h2, Res.ok_bind]
  by_cases hu : isUnc ty a
  · rw [(rowPtr_any h i hi).1 hu, Res.ok_bind]
    have h3 : a.dataU[i]? = some (rowOf ty a i) := by rw [← h1, rowsOf, if_pos hu]
    simp only [Int.toNat_natCast, h3]
    rw [block, if_pos (by omega)]; simp
  · have hf : Flat ty a := ⟨h, fun _ => hu⟩
    obtain ⟨h3, h4⟩ := Flat.rowOf_eq hl hf i hi
    rw [(rowPtr_any h i hi).2 hu, Res.ok_bind]
    have h5 := hf.start_le (i + 1) (by omega) hi
    rw [hf.start_succ i hi] at h5
    simp only []
    rw [block, if_pos (by omega), h4, h3]; rfl

theorem packRows_eq {ty : Ty} (hl : NoPad ty) {a : Arr.Array α} (h : Inv ty a) : ∀ (ls : List Nat),
    (∀ l ∈ ls, l < a.size) → packRows ty a (ls.map (fun (l : Nat) => (l : Int))) = .ok ((ls.map (rowOf ty a)).flatten) := by
  intro ls
  induction ls with
  | nil => intro _; rfl
  | cons l ls ih =>
    intro hls
    simp only [List.map_cons, packRows, packRow_eq hl h l (hls l (by simp)), Res.ok_bind,
      ih (fun k hk => hls k (by simp [hk])), List.flatten_cons]

theorem pushLocs_eq {lens : List Nat} {maps : List Map} (h : Links lens maps)
    {r : Nat} {mr : Map} (hr : maps[r]? = some mr) {ty : Ty} {fa : Arr.Array α} (hf : Inv ty fa)
    (hs : lens[r]? = some fa.size) :
    pushLocs ty mr fa = .ok (mr.pushingIndexGlobal.map (fun q =>
      ((locRow lens r q : Int), (rowOf ty fa (locRow lens r q)).length))) := by
  obtain ⟨p0, hp0⟩ := rowPtr_zero hf
  simp only [pushLocs, hp0, Res.ok_bind]
  apply forRanks_map
  intro i q hq
  have ho := h.push_owned hr q hq
  obtain ⟨hl, _⟩ := locRow_lt ho _ hs
  rw [ownLoc_eq h hr q ho, Res.ok_bind]
  have : ∃ p, rowPtr ty fa (locRow lens r q : Int) = .ok p := by
    by_cases hu : isUnc ty fa
    · exact ⟨_, (rowPtr_any hf _ hl).1 hu⟩
    · exact ⟨_, (rowPtr_any hf _ hl).2 hu⟩
  obtain ⟨p, hp⟩ := this
  rw [hp, Res.ok_bind, (rowOf_get hf _ hl).2, Res.ok_bind]

/-- what in-situ packing needs of the state -/
structure Packed (ty : Ty) (lens : List Nat) (maps : List Map) (w : World α) (locs : List (List Int)) : Prop where
  fl : w.fathers.length = lens.length
  sl : w.sons.length = lens.length
  fa : ∀ (r : Nat) (fa : Arr.Array α), w.fathers[r]? = some fa → Inv ty fa ∧ lens[r]? = some fa.size
  so : ∀ (s : Nat) (so : Arr.Array α) (ms : Map), w.sons[s]? = some so → maps[s]? = some ms →
    Flat ty so ∧ so.size = ms.ghostIndex.length
  row : ∀ (r s : Nat) (fa so : Arr.Array α) (ms : Map) (k : Nat) (q : Int), w.fathers[r]? = some fa → w.sons[s]? = some so →
    maps[s]? = some ms → ms.ghostIndex[k]? = some q → Owns lens r q →
    slenOf ty so k = (rowOf ty fa (locRow lens r q)).length
  locs : ∀ (r : Nat) (mr : Map), maps[r]? = some mr →
    locs[r]? = some (mr.pushingIndexGlobal.map (fun q => (locRow lens r q : Int)))

theorem lenOf_lt {ty : Ty} (hc : ty.layout = .csr) {a : Arr.Array α} (h : Inv ty a) (i : Nat) (hi : i < a.size) :
    (rowOf ty a i).length < int32Max := by
  by_cases hu : isUnc ty a
  · have h1 := (rowOf_get h i hi).1
    rw [rowsOf, if_pos hu] at h1
    exact (h.unc hu).2 _ (List.mem_of_getElem? h1)
  · have hf : Flat ty a := ⟨h, fun _ => hu⟩
    obtain ⟨st, h7, _, h8⟩ := hf.comp hc (by omega)
    obtain ⟨b, hb⟩ := h8.get i (by omega)
    obtain ⟨e, he⟩ := h8.get (i + 1) (by omega)
    have := (h8.mono _ b e hi hb he).2
    rw [(Flat.rowOf_eq (Or.inl hc) hf i hi).2]
    simpa [slenOf, startOf, hc, h7, hb, he] using this

theorem rowOf_table {ty : Ty} (hl : ty.layout = .fixed ∨ ty.layout = .staticFixed) {a : Arr.Array α} (h : Inv ty a)
    (i : Nat) (hi : i < a.size) : (rowOf ty a i).length = stride ty a := by
  have hc : ty.layout ≠ .csr := by rcases hl with h | h <;> simp [h]
  have hf : Flat ty a := ⟨h, fun _ hx => hc hx.1⟩
  rw [(Flat.rowOf_eq (by rcases hl with h | h; exact Or.inr (Or.inl h); exact Or.inr (Or.inr h)) hf i hi).2,
    slenOf_table hc]

theorem createInSitu_spec (z : α) {ty : Ty} (hnp : NoPad ty) (u : Bool) {lens : List Nat}
    {maps : List Map} (h : Links lens maps) {w : World α} (hw : Ready ty lens w) :
    ∃ sons locs, createInSitu z ty u maps w = .ok (⟨w.fathers, sons⟩, locs) ∧
      Packed ty lens maps ⟨w.fathers, sons⟩ locs := by
  let L : Nat → Int → Nat := fun t q => (rowOf ty (w.fathers[t]?.getD Arr.Array.empty) (locRow lens t q)).length
  have hIone : ∀ (i : Nat) (x : Map × Arr.Array α), (maps.zip w.fathers)[i]? = some x →
      pushLocs ty x.1 x.2 = .ok (x.1.pushingIndexGlobal.map (fun q =>
        ((locRow lens i q : Int), (rowOf ty x.2 (locRow lens i q)).length))) := by
    intro i x hx
    obtain ⟨h1, h2⟩ := zip_get (x := x.1) (y := x.2) hx
    obtain ⟨h3, h4⟩ := hw.fa i x.2 h2
    exact pushLocs_eq h h1 h3 h4
  obtain ⟨infos, hI⟩ := forRanks_total (fun _ (x : Map × Arr.Array α) => pushLocs ty x.1 x.2) (maps.zip w.fathers) 0 (by
    intro i x hx
    exact ⟨_, hIone i x hx⟩)
  obtain ⟨hIl, hIg⟩ := (forRanks_ok _ _ _ _).1 hI
  have hmf : (maps.zip w.fathers).length = lens.length := by simp [h.len, hw.fl]
  have hfat : ∀ t, t < lens.length → ∃ fa, w.fathers[t]? = some fa := by
    intro t ht; exact ⟨w.fathers[t]'(by rw [hw.fl]; exact ht), by simp⟩
  have hIo : ∀ (r : Nat) (mr : Map) (fa : Arr.Array α), maps[r]? = some mr → w.fathers[r]? = some fa →
      infos[r]? = some (mr.pushingIndexGlobal.map (fun q =>
        ((locRow lens r q : Int), (rowOf ty fa (locRow lens r q)).length))) := by
    intro r mr fa hm hf
    obtain ⟨y, hy1, hy2⟩ := hIg r (mr, fa) (get_zip hm hf)
    have := hIone r (mr, fa) (get_zip hm hf)
    simp only at this hy2
    rw [this] at hy2
    rw [hy1, ← Res.ok.inj hy2]
  have hsizes : ∀ (t : Nat) (mt : Map), maps[t]? = some mt →
      (infos.map (fun l => l.map (·.2)))[t]? = some (mt.pushingIndexGlobal.map (L t)) := by
    intro t mt hm
    obtain ⟨ft, hft⟩ := hfat t (by rw [← h.len]; exact (List.getElem?_eq_some_iff.1 hm).1)
    rw [List.getElem?_map, hIo t mt ft hm hft]
    simp [L, hft]
  have hSone : ∀ (s : Nat) (x : Map × Arr.Array α × Arr.Array α), (maps.zip (w.fathers.zip w.sons))[s]? = some x →
      ∃ so', sonResize z ty u maps (infos.map (fun l => l.map (·.2))) s x.1 x.2.1 x.2.2 = .ok so' ∧
        SonOk ty x.2.1 so' x.1.ghostIndex.length ∧
        ∀ (k : Nat) (q : Int) (t : Nat), x.1.ghostIndex[k]? = some q → Owns lens t q → lenOf ty so' k = L t q := by
    intro s x hx
    obtain ⟨ms, fs, so⟩ := x
    obtain ⟨h1, h23⟩ := zip_get hx
    obtain ⟨h2, h3⟩ := zip_get h23
    have hLl : ∀ (t : Nat) (q : Int), Owns lens t q → ∃ ft, w.fathers[t]? = some ft ∧ Inv ty ft ∧
        locRow lens t q < ft.size ∧ L t q = (rowOf ty ft (locRow lens t q)).length := by
      intro t q ho
      obtain ⟨ft, hft⟩ := hfat t ho.1
      obtain ⟨h4, h5⟩ := hw.fa t ft hft
      exact ⟨ft, hft, h4, (locRow_lt ho _ h5).1, by simp [L, hft]⟩
    have hfx : ty.layout = .fixed ∨ ty.layout = .staticFixed →
        ∀ (t : Nat) (q : Int), Owns lens t q → L t q = stride ty fs := by
      intro hl t q ho
      obtain ⟨ft, hft, h4, h5, h6⟩ := hLl t q ho
      rw [h6, rowOf_table hl h4 _ h5]
      exact hw.width t s ft fs hft h2
    apply sonResize_eq z u h _ L (by simp [hIl, hmf, h.len]) hsizes h1 (hw.so s so h3)
    · intro hc k q t hk ho
      rcases hnp with hl | hl
      · exact absurd hl hc
      · rw [hfx hl t q ho]; exact Nat.le_refl _
    · intro hc k q t hk ho
      obtain ⟨ft, hft, h4, h5, h6⟩ := hLl t q ho
      rw [h6]; exact lenOf_lt hc h4 _ h5
    · intro hl k q t hk ho
      exact hfx hl t q ho
  obtain ⟨sons, hS⟩ := forRanks_total (fun r (x : Map × Arr.Array α × Arr.Array α) =>
      sonResize z ty u maps (infos.map (fun l => l.map (·.2))) r x.1 x.2.1 x.2.2)
    (maps.zip (w.fathers.zip w.sons)) 0 (by
    intro i x hx
    obtain ⟨so', h1, _⟩ := hSone i x hx
    rw [Nat.zero_add]
    exact ⟨so', h1⟩)
  obtain ⟨hSl, hSg⟩ := (forRanks_ok _ _ _ _).1 hS
  have hslen : sons.length = lens.length := by rw [hSl]; simp [h.len, hw.fl, hw.sl]
  have hSo : ∀ (s : Nat) (ms : Map) (fs so : Arr.Array α), maps[s]? = some ms → w.fathers[s]? = some fs →
      sons[s]? = some so → SonOk ty fs so ms.ghostIndex.length ∧
      ∀ (k : Nat) (q : Int) (t : Nat), ms.ghostIndex[k]? = some q → Owns lens t q → lenOf ty so k = L t q := by
    intro s ms fs so hm hf hs
    have hsl : s < w.sons.length := by
      have := (List.getElem?_eq_some_iff.1 hs).1
      rw [hw.sl]; omega
    have hz := get_zip hm (get_zip hf (show w.sons[s]? = some w.sons[s] by simp [hsl]))
    obtain ⟨so', h1, h2, h3⟩ := hSone s _ hz
    obtain ⟨y, hy1, hy2⟩ := hSg s _ hz
    rw [Nat.zero_add] at hy2
    simp only at h1 hy2
    rw [h1] at hy2
    rw [hs] at hy1
    cases hy1
    cases Res.ok.inj hy2
    exact ⟨h2, h3⟩
  refine ⟨sons, infos.map (fun l => l.map (·.1)), ?_, hw.fl, hslen, hw.fa, ?_, ?_, ?_⟩
  · rw [createInSitu, hI, Res.ok_bind, hS, Res.ok_bind]
  · intro s so ms hs hm
    obtain ⟨fs, hfs⟩ := hfat s (by rw [← h.len]; exact (List.getElem?_eq_some_iff.1 hm).1)
    have := (hSo s ms fs so hm hfs hs).1
    exact ⟨this.flat, this.size⟩
  · intro r s fa so ms k q hf hs hm hk ho
    obtain ⟨fs, hfs⟩ := hfat s (by rw [← h.len]; exact (List.getElem?_eq_some_iff.1 hm).1)
    have hf' : w.fathers[r]? = some fa := hf
    rw [noPad_slen hnp, (hSo s ms fs so hm hfs hs).2 k q r hk ho]
    simp [L, hf']
  · intro r mr hm
    obtain ⟨fa, hfa⟩ := hfat r (by rw [← h.len]; exact (List.getElem?_eq_some_iff.1 hm).1)
    rw [List.getElem?_map, hIo r mr fa hm hfa]
    simp [List.map_map, Function.comp_def]

/-- no pair of ranks exchanges rows that are all empty -/
def NoSilentPair (ty : Ty) (lens : List Nat) (maps : List Map) (fathers : List (Arr.Array α)) : Prop :=
  ∀ (r s : Nat) (ms : Map) (k : Nat) (q : Int), maps[s]? = some ms → ms.ghostIndex[k]? = some q → Owns lens r q →
    ∃ (k' : Nat) (q' : Int) (fa : Arr.Array α), ms.ghostIndex[k']? = some q' ∧ Owns lens r q' ∧ fathers[r]? = some fa ∧
      0 < (rowOf ty fa (locRow lens r q')).length

theorem Packed.shape {ty : Ty} {lens : List Nat} {maps : List Map} {w w' : World α} {locs : List (List Int)}
    (h : Packed ty lens maps w locs) (hs : Shape w w') (hf : w'.fathers = w.fathers) :
    Packed ty lens maps w' locs := by
  refine ⟨by rw [hf, h.fl], by rw [hs.sl, h.sl], by rw [hf]; exact h.fa, ?_, ?_, h.locs⟩
  · intro s so ms hso hm
    obtain ⟨x, hx⟩ := get_of_len hs.sl hso
    have hsh := hs.sons s x so hx hso
    obtain ⟨h1, h2⟩ := h.so s x ms hx hm
    exact ⟨hsh.flat h1, by rw [hsh.size]; exact h2⟩
  · intro r s fa so ms k q hfa hso hm hk ho
    obtain ⟨y, hy⟩ := get_of_len hs.sl hso
    have hshy := hs.sons s y so hy hso
    rw [hshy.slenOf]
    exact h.row r s fa y ms k q (by rw [← hf]; exact hfa) hy hm hk ho

theorem pullMsgInSitu_spec {ty : Ty} (hnp : NoPad ty) {lens : List Nat} {maps : List Map}
    (hm : Links lens maps) {w : World α} {locs : List (List Int)} (h : Packed ty lens maps w locs)
    (hns : NoSilentPair ty lens maps w.fathers)
    (r s : Nat) (hr : r < lens.length) (hs : s < lens.length) :
    ∃ w', pullMsgInSitu ty maps locs w r s = .ok w' ∧ Shape w w' ∧ w'.fathers = w.fathers ∧
      (∀ (t : Nat), t ≠ s → w'.sons[t]? = w.sons[t]?) ∧
      (∀ (fa so so' : Arr.Array α) (ms : Map) (k : Nat) (q : Int), w.fathers[r]? = some fa → w.sons[s]? = some so → w'.sons[s]? = some so' →
        maps[s]? = some ms → ms.ghostIndex[k]? = some q →
        (Owns lens r q → srow ty so' k = rowOf ty fa (locRow lens r q)) ∧
        (¬ Owns lens r q → srow ty so' k = srow ty so k)) := by
  have hfa : w.fathers[r]? = some (w.fathers[r]'(by rw [h.fl]; exact hr)) := by simp
  have hso : w.sons[s]? = some (w.sons[s]'(by rw [h.sl]; exact hs)) := by simp
  have hms : maps[s]? = some (maps[s]'(by rw [hm.len]; exact hs)) := by simp
  have hmr : maps[r]? = some (maps[r]'(by rw [hm.len]; exact hr)) := by simp
  generalize w.fathers[r]'(by rw [h.fl]; exact hr) = fa at hfa
  generalize w.sons[s]'(by rw [h.sl]; exact hs) = so at hso
  generalize maps[s]'(by rw [hm.len]; exact hs) = ms at hms
  generalize maps[r]'(by rw [hm.len]; exact hr) = mr at hmr
  have hlr := h.locs r mr hmr
  obtain ⟨hff, hfs⟩ := h.fa r fa hfa
  obtain ⟨hsf, hss⟩ := h.so s so ms hso hms
  obtain ⟨b, e, c1, c2, c3, c4, c5, c6, c7⟩ := hm.starts hms r hr
  obtain ⟨pb, pn, d1, d2, d3, d4⟩ := hm.push hmr hms
  have hpn : pn = e - b := by
    have := hm.sizes hmr hms
    rw [d2, c6] at this
    exact Option.some.inj this
  have hq : ∀ i, i < e - b → ∃ q, (segment ms.ghostIndex ms.ghostStart r)[i]? = some q ∧
        ms.ghostIndex[b + i]? = some q ∧ Owns lens r q ∧ locRow lens r q < fa.size ∧
        slenOf ty so (b + i) = (rowOf ty fa (locRow lens r q)).length := by
    intro i hi
    have hk : ms.ghostIndex[b + i]? = some (ms.ghostIndex[b + i]'(by omega)) := by simp
    have ho := (c7 _ _ hk).1 (by omega)
    refine ⟨_, ?_, hk, ho, (locRow_lt ho _ hfs).1, h.row r s fa so ms _ _ hfa hso hms hk ho⟩
    rw [segment_getElem? _ _ _ b e i c1 c2 (by omega)]; exact hk
  simp only [pullMsgInSitu, (idx_ok_iff _ _ _).2 hmr, (idx_ok_iff _ _ _).2 hms, Res.ok_bind,
    (idx_ok_iff _ _ _).2 hlr, (idx_ok_iff _ _ _).2 hfa, (idx_ok_iff _ _ _).2 hso, (idx_ok_iff _ _ _).2 c1,
    (idx_ok_iff _ _ _).2 c2, (idx_ok_iff _ _ _).2 d1, (idx_ok_iff _ _ _).2 d2]
  rcases Nat.lt_or_ge b e with hbe | hbe
  · have h0 : 0 < so.size := by omega
    rw [hsf.rowPtr e (by omega) h0, Res.ok_bind, hsf.rowPtr b (by omega) h0, Res.ok_bind]
    simp only [ptrDiff, Res.ok_bind]
    rw [if_pos (by omega), block, if_pos (by simpa using d3), Res.ok_bind, ← List.map_drop, ← List.map_take, d4]
    let L := (segment ms.ghostIndex ms.ghostStart r).map (fun q => rowOf ty fa (locRow lens r q))
    have hLl : L.length = e - b := by simp [L, c5]
    have hg : packRows ty fa ((segment ms.ghostIndex ms.ghostStart r).map (fun q => (locRow lens r q : Int))) =
        .ok L.flatten := by
      have := packRows_eq hnp hff ((segment ms.ghostIndex ms.ghostStart r).map (locRow lens r)) (by
        intro l hl
        obtain ⟨q, hq', rfl⟩ := List.mem_map.1 hl
        obtain ⟨i, hi, rfl⟩ := List.mem_iff_getElem.1 hq'
        obtain ⟨q', h1, _, _, h4, _⟩ := hq i (by omega)
        rw [List.getElem?_eq_getElem hi] at h1
        cases h1; exact h4)
      simpa only [List.map_map, Function.comp_def] using this
    have hLlen : ∀ i x, L[i]? = some x → x.length = slenOf ty so (b + i) := by
      intro i x hx
      have hi : i < e - b := by
        have := (List.getElem?_eq_some_iff.1 hx).1; omega
      obtain ⟨q, h1, h2, h3, h4, h5⟩ := hq i hi
      simp only [L, List.getElem?_map, h1, Option.map_some, Option.some.injEq] at hx
      rw [← hx, h5]
    have hpre := rows_prefix hsf L b (by omega) hLlen L.length (Nat.le_refl _)
    rw [List.take_length, hLl, show b + (e - b) = e by omega] at hpre
    have hfl : L.flatten.length = startOf ty so e - startOf ty so b := by
      rw [List.length_flatten, hpre]
    have hmn := hsf.start_mono b e c3 (by omega)
    have hin : startOf ty so b + L.flatten.length ≤ so.data.length := by
      have := hsf.start_le e (by omega) (by omega)
      omega
    obtain ⟨p1, p2, p3⟩ := pull_rows hsf L b (by omega) hLlen _ rfl rfl (by omega)
    have hposs : startOf ty so b < startOf ty so e := by
      obtain ⟨q0, g1, g2, g3, _⟩ := hq 0 (by omega)
      obtain ⟨k', q', fa', f1, f2, f3, f4⟩ := hns r s ms _ q0 hms g2 g3
      rw [hfa] at f3; cases f3
      obtain ⟨k1, k2⟩ := (c7 k' q' f1).2 f2
      have hrow := h.row r s fa so ms k' q' hfa hso hms f1 f2
      have h6 := hsf.start_mono b k' k1 (by omega)
      have h7 := hsf.start_succ k' (by omega)
      have h8 := hsf.start_mono (k' + 1) e (by omega) (by omega)
      omega
    have hp2 : (startOf ty so e : Int) - startOf ty so b > 0 := by omega
    have hp3 : (L.flatten.length : Int) ≤ (startOf ty so e : Int) - startOf ty so b := by omega
    rw [hg, Res.ok_bind, if_pos hp2]
    rw [if_pos hp3, memcpy_ok _ _ _ hin, Res.ok_bind]
    refine ⟨_, rfl, ⟨rfl, by simp, ?_, ?_⟩, rfl, ?_, ?_⟩
    · intro r fa fa' h1 h2
      have h2' : w.fathers[r]? = some fa' := h2
      rw [h1] at h2'; cases h2'; exact SameShape.refl _
    · intro t so1 so2 h1 h2
      simp only [set_get _ _ _ _ _ hso] at h2
      by_cases hts : t = s
      · subst hts
        rw [if_pos rfl] at h2
        rw [hso] at h1
        cases h1; cases h2; exact p1
      · rw [if_neg hts, h1] at h2; cases h2; exact SameShape.refl _
    · intro t ht
      simp only [set_get _ _ _ _ _ hso, if_neg ht]
    · intro fa' so1 so2 ms' k q h1 h2 h3 h4 h5
      rw [hfa] at h1; cases h1
      rw [hso] at h2; cases h2
      rw [hms] at h4; cases h4
      simp only [set_get _ _ _ _ _ hso, if_pos, Option.some.injEq] at h3
      subst h3
      have hk : k < so.size := by
        have := (List.getElem?_eq_some_iff.1 h5).1; omega
      constructor
      · intro ho
        obtain ⟨x1, x2⟩ := (c7 k q h5).2 ho
        obtain ⟨q', e1, e2, e3, e4, e5⟩ := hq (k - b) (by omega)
        rw [show b + (k - b) = k by omega, h5] at e2
        cases e2
        have := p2 (k - b) (rowOf ty fa (locRow lens r q)) (by simp [L, e1])
        rwa [show b + (k - b) = k by omega] at this
      · intro hno
        apply p3 k hk
        rw [hLl]
        have : ¬ (b ≤ k ∧ k < e) := fun hx => hno ((c7 k q h5).1 hx)
        omega
  · have hbe' : b = e := by omega
    subst hbe'
    have hpn0 : pn = 0 := by omega
    obtain ⟨p, hp, hpd⟩ : ∃ p, rowPtr ty so (b : Int) = .ok p ∧ ptrDiff p p = .ok 0 := by
      rcases Nat.eq_zero_or_pos so.size with h0 | h0
      · obtain ⟨p, hp, hpp⟩ := rowPtr_empty hsf.inv h0
        have hb0 : b = 0 := by omega
        subst hb0
        exact ⟨p, hp, by rcases hpp with rfl | rfl <;> rfl⟩
      · exact ⟨_, hsf.rowPtr b (by omega) h0, by simp [ptrDiff]⟩
    rw [hp, Res.ok_bind, Res.ok_bind, hpd, Res.ok_bind, if_neg (by omega), if_neg (by omega)]
    refine ⟨w, rfl, Shape.refl w, rfl, fun _ _ => rfl, ?_⟩
    intro fa' so1 so2 ms' k q h1 h2 h3 h4 h5
    rw [h2] at h3; cases h3
    rw [hms] at h4; cases h4
    refine ⟨?_, fun _ => rfl⟩
    intro ho
    obtain ⟨x1, x2⟩ := (c7 k q h5).2 ho
    omega

theorem pullInSitu_spec {ty : Ty} (hnp : NoPad ty) {lens : List Nat} {maps : List Map}
    (hm : Links lens maps) {locs : List (List Int)} : ∀ (order : List (Nat × Nat)) (w : World α),
    Packed ty lens maps w locs → NoSilentPair ty lens maps w.fathers →
    (∀ p ∈ order, p.1 < lens.length ∧ p.2 < lens.length) →
    ∃ w', pullInSitu ty maps locs w order = .ok w' ∧ Shape w w' ∧ w'.fathers = w.fathers ∧
      ∀ (s r : Nat) (fa so so' : Arr.Array α) (ms : Map) (k : Nat) (q : Int), w.fathers[r]? = some fa →
        w.sons[s]? = some so → w'.sons[s]? = some so' → maps[s]? = some ms → ms.ghostIndex[k]? = some q →
        Owns lens r q →
        ((r, s) ∈ order → srow ty so' k = rowOf ty fa (locRow lens r q)) ∧
        ((r, s) ∉ order → srow ty so' k = srow ty so k) := by
  intro order
  induction order with
  | nil =>
    intro w h _ _
    refine ⟨w, rfl, Shape.refl w, rfl, ?_⟩
    intro s r fa so so' ms k q _ h2 h3 _ _ _
    rw [h2] at h3; cases h3
    exact ⟨fun hx => by simp at hx, fun _ => rfl⟩
  | cons p rest ih =>
    intro w h hns hp
    obtain ⟨r0, s0⟩ := p
    obtain ⟨hr0, hs0⟩ := hp (r0, s0) (by simp)
    obtain ⟨w1, h1, h2, h3, h4, h5⟩ := pullMsgInSitu_spec hnp hm h hns r0 s0 hr0 hs0
    obtain ⟨w', g1, g2, g3, g4⟩ := ih w1 (h.shape h2 h3) (by rw [h3]; exact hns) (fun p hp' => hp p (by simp [hp']))
    refine ⟨w', ?_, h2.trans g2, by rw [g3, h3], ?_⟩
    · simp only [pullInSitu, h1, Res.ok_bind, g1]
    · intro s r fa so so' ms k q hfa hso hso' hms hk ho
      obtain ⟨so1, hso1⟩ := get_of_len (l := w1.sons) g2.sl hso'
      obtain ⟨a1, a2⟩ := g4 s r fa so1 so' ms k q (by rw [h3]; exact hfa) hso1 hso' hms hk ho
      have hmid : ((r, s) = (r0, s0) → srow ty so1 k = rowOf ty fa (locRow lens r q)) ∧
          ((r, s) ≠ (r0, s0) → srow ty so1 k = srow ty so k) := by
        constructor
        · rintro hx
          cases hx
          exact (h5 fa so so1 ms k q hfa hso hso1 hms hk).1 ho
        · intro hx
          by_cases hs : s = s0
          · subst hs
            have hrr : r ≠ r0 := fun hh => hx (by rw [hh])
            have hfa0 : w.fathers[r0]? = some (w.fathers[r0]'(by rw [h.fl]; exact hr0)) := by simp
            exact (h5 _ so so1 ms k q hfa0 hso hso1 hms hk).2 (fun ho2 => hrr (owns_unique ho ho2))
          · rw [h4 s hs, hso] at hso1
            cases hso1; rfl
      constructor
      · intro hx
        by_cases hr : (r, s) ∈ rest
        · exact a1 hr
        · rw [a2 hr]
          rcases List.mem_cons.1 hx with hx | hx
          · exact hmid.1 hx
          · exact absurd hx hr
      · intro hx
        rw [List.mem_cons, not_or] at hx
        rw [a2 hx.2, hmid.2 hx.1]

end DNDSR.Tran
