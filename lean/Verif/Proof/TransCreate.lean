import Verif.Proof.TransTypes

/-! `createTypes` as a whole. -/

namespace DNDSR.Tran

open DNDSR.Arr hiding Array
open DNDSR.IMap

variable {α : Type}

theorem compress_flat (z : α) {ty : Ty} {a : Arr.Array α} (h : Inv ty a) :
    ∃ a', compress z ty a = .ok a' ∧ Flat ty a' ∧ valOf ty a' = valOf ty a ∧ a'.size = a.size ∧
      stride ty a' = stride ty a := by
  by_cases hc : ty.layout = .csr
  · obtain ⟨b, h1, h2, h3, h4⟩ := csrCompress_spec z h hc
    have hs : b.size = a.size := by
      rw [← rowsOf_length h2, ← rowsOf_length h]
      exact congrArg (fun v : Val α => v.rows.length) h3
    refine ⟨b, by simpa [compress, hc] using h1, ⟨h2, ?_⟩, h3, hs, by simp [stride, hc]⟩
    rintro hp ⟨_, hx⟩
    rw [h4 (by omega)] at hx; cases hx
  · refine ⟨a, ?_, ⟨h, fun _ hx => hc hx.1⟩, rfl, rfl, rfl⟩
    have := h.lay
    simp only [compress]

/-- fathers and sons ready for `createMPITypes` -/
structure Ready (ty : Ty) (lens : List Nat) (w : World α) : Prop where
  fl : w.fathers.length = lens.length
  sl : w.sons.length = lens.length
  fa : ∀ (r : Nat) (fa : Arr.Array α), w.fathers[r]? = some fa → Inv ty fa ∧ lens[r]? = some fa.size
  so : ∀ (s : Nat) (so : Arr.Array α), w.sons[s]? = some so → Inv ty so
  width : ∀ (r s : Nat) (fr fs : Arr.Array α), w.fathers[r]? = some fr → w.fathers[s]? = some fs →
    stride ty fr = stride ty fs

theorem zip_get {β γ : Type} {l : List β} {m : List γ} {i : Nat} {x : β} {y : γ}
    (h : (l.zip m)[i]? = some (x, y)) : l[i]? = some x ∧ m[i]? = some y := by
  rwa [List.getElem?_zip_eq_some] at h

theorem get_zip {β γ : Type} {l : List β} {m : List γ} {i : Nat} {x : β} {y : γ}
    (h1 : l[i]? = some x) (h2 : m[i]? = some y) : (l.zip m)[i]? = some (x, y) := by
  rw [List.getElem?_zip_eq_some]; exact ⟨h1, h2⟩

theorem createTypes_spec (z : α) {ty : Ty} (u : Bool) {lens : List Nat}
    {maps : List Map} (h : Links lens maps) {w : World α} (hw : Ready ty lens w) :
    ∃ fathers sons, fathers.length = lens.length ∧ sons.length = lens.length ∧
      (∀ (r : Nat) (fa : Arr.Array α), w.fathers[r]? = some fa → ∃ fa', fathers[r]? = some fa' ∧
        valOf ty fa' = valOf ty fa ∧ fa'.size = fa.size ∧ Flat ty fa') ∧
      ((createTypes z ty u maps w = .abort ∧ ∃ (s : Nat) (so : Arr.Array α) (ms : Map), maps[s]? = some ms ∧
          0 < so.size ∧ int32Max ≤ startOf ty so so.size ∧ Flat ty so ∧ so.size = ms.ghostIndex.length ∧
          ∀ (k : Nat) (q : Int) (r : Nat) (fa : Arr.Array α), ms.ghostIndex[k]? = some q → Owns lens r q →
            fathers[r]? = some fa → slenOf ty so k = slenOf ty fa (locRow lens r q)) ∨
       ∃ types, createTypes z ty u maps w = .ok (⟨fathers, sons⟩, types) ∧
        Wired ty lens maps ⟨fathers, sons⟩ types) := by
  -- compression
  obtain ⟨fathers, hF⟩ := forRanks_total (fun _ fa => compress z ty fa) w.fathers 0 (by
    intro i x hx
    obtain ⟨a', h1, _⟩ := compress_flat z (hw.fa i x hx).1
    exact ⟨a', h1⟩)
  obtain ⟨hFl, hFg⟩ := (forRanks_ok _ _ _ _).1 hF
  have hFo : ∀ (r : Nat) (fa : Arr.Array α), w.fathers[r]? = some fa → ∃ fa', fathers[r]? = some fa' ∧
      Flat ty fa' ∧ valOf ty fa' = valOf ty fa ∧ fa'.size = fa.size ∧ stride ty fa' = stride ty fa := by
    intro r fa hfa
    obtain ⟨a', h1, h2, h3, h4, h5⟩ := compress_flat z (hw.fa r fa hfa).1
    obtain ⟨y, hy1, hy2⟩ := hFg r fa hfa
    simp only [h1, Res.ok.injEq] at hy2
    subst hy2
    exact ⟨_, hy1, h2, h3, h4, h5⟩
  have hflen : fathers.length = lens.length := by rw [hFl, hw.fl]
  have hFf : ∀ (r : Nat) (fa : Arr.Array α), fathers[r]? = some fa → Flat ty fa ∧ lens[r]? = some fa.size := by
    intro r fa hfa
    have hr : r < w.fathers.length := by
      have := (List.getElem?_eq_some_iff.1 hfa).1; omega
    obtain ⟨fa', h1, h2, h3, h4, h5⟩ := hFo r w.fathers[r] (by simp [hr])
    rw [hfa] at h1; cases h1
    exact ⟨h2, by rw [h4]; exact (hw.fa r _ (by simp [hr])).2⟩
  have hFw : ∀ (r s : Nat) (fr fs : Arr.Array α), fathers[r]? = some fr → fathers[s]? = some fs →
      stride ty fr = stride ty fs := by
    intro r s fr fs hr hs
    have hrl : r < w.fathers.length := by
      have := (List.getElem?_eq_some_iff.1 hr).1; omega
    have hsl : s < w.fathers.length := by
      have := (List.getElem?_eq_some_iff.1 hs).1; omega
    obtain ⟨a1, h1, _, _, _, h5⟩ := hFo r w.fathers[r] (by simp [hrl])
    obtain ⟨a2, g1, _, _, _, g5⟩ := hFo s w.fathers[s] (by simp [hsl])
    rw [hr] at h1; rw [hs] at g1; cases h1; cases g1
    rw [h5, g5]; exact hw.width r s _ _ (by simp [hrl]) (by simp [hsl])
  -- push information
  let L : Nat → Int → Nat := fun t q => lenOf ty (fathers[t]?.getD Arr.Array.empty) (locRow lens t q)
  have hIone : ∀ (i : Nat) (x : Map × Arr.Array α), (maps.zip fathers)[i]? = some x →
      pushInfo ty x.1 x.2 = .ok (x.1.pushingIndexGlobal.map (fun q =>
        (startOf ty x.2 (locRow lens i q), lenOf ty x.2 (locRow lens i q)))) := by
    intro i x hx
    obtain ⟨h1, h2⟩ := zip_get (x := x.1) (y := x.2) hx
    obtain ⟨h3, h4⟩ := hFf i x.2 h2
    exact pushInfo_eq h h1 h3 h4
  obtain ⟨infos, hI⟩ := forRanks_total (fun _ (x : Map × Arr.Array α) => pushInfo ty x.1 x.2) (maps.zip fathers) 0 (by
    intro i x hx
    exact ⟨_, hIone i x hx⟩)
  obtain ⟨hIl, hIg⟩ := (forRanks_ok _ _ _ _).1 hI
  have hmf : (maps.zip fathers).length = lens.length := by simp [h.len, hflen]
  have hIo : ∀ (r : Nat) (mr : Map) (fa : Arr.Array α), maps[r]? = some mr → fathers[r]? = some fa →
      infos[r]? = some (mr.pushingIndexGlobal.map (fun q =>
        (startOf ty fa (locRow lens r q), lenOf ty fa (locRow lens r q)))) := by
    intro r mr fa hm hf
    obtain ⟨y, hy1, hy2⟩ := hIg r (mr, fa) (get_zip hm hf)
    have := hIone r (mr, fa) (get_zip hm hf)
    simp only at this hy2
    rw [this] at hy2
    rw [hy1, ← Res.ok.inj hy2]
  have hsizes : ∀ (t : Nat) (mt : Map), maps[t]? = some mt →
      (infos.map (fun l => l.map (·.2)))[t]? = some (mt.pushingIndexGlobal.map (L t)) := by
    intro t mt hm
    have ht : t < fathers.length := by
      have := (List.getElem?_eq_some_iff.1 hm).1
      rw [hflen, ← h.len]; exact this
    rw [List.getElem?_map, hIo t mt fathers[t] hm (by simp [ht])]
    simp [L, ht]
  have hfat : ∀ t, t < lens.length → ∃ fa, fathers[t]? = some fa := by
    intro t ht; exact ⟨fathers[t]'(by omega), by simp⟩
  -- sons
  have hSone : ∀ (s : Nat) (x : Map × Arr.Array α × Arr.Array α), (maps.zip (fathers.zip w.sons))[s]? = some x →
      ∃ so', sonResize z ty u maps (infos.map (fun l => l.map (·.2))) s x.1 x.2.1 x.2.2 = .ok so' ∧
        SonOk ty x.2.1 so' x.1.ghostIndex.length ∧
        ∀ (k : Nat) (q : Int) (t : Nat), x.1.ghostIndex[k]? = some q → Owns lens t q → lenOf ty so' k = L t q := by
    intro s x hx
    obtain ⟨ms, fs, so⟩ := x
    obtain ⟨h1, h23⟩ := zip_get hx
    obtain ⟨h2, h3⟩ := zip_get h23
    have hLl : ∀ (t : Nat) (q : Int), Owns lens t q → ∃ ft, fathers[t]? = some ft ∧ Flat ty ft ∧
        locRow lens t q < ft.size ∧ L t q = lenOf ty ft (locRow lens t q) := by
      intro t q ho
      obtain ⟨ft, hft⟩ := hfat t ho.1
      obtain ⟨h4, h5⟩ := hFf t ft hft
      exact ⟨ft, hft, h4, (locRow_lt ho _ h5).1, by simp [L, hft]⟩
    apply sonResize_eq z u h _ L (by simp [hIl, hmf, h.len]) hsizes h1 (hw.so s so h3)
    · intro hc k q t hk ho
      obtain ⟨ft, hft, h4, h5, h6⟩ := hLl t q ho
      rw [h6, hFw s t _ _ h2 hft, ← slenOf_table hc ft (locRow lens t q)]
      exact h4.len_le _ h5
    · intro hc k q t hk ho
      obtain ⟨ft, hft, h4, h5, h6⟩ := hLl t q ho
      obtain ⟨st, h7, _, h8⟩ := h4.comp hc (by omega)
      obtain ⟨b, hb⟩ := h8.get (locRow lens t q) (by omega)
      obtain ⟨e, he⟩ := h8.get (locRow lens t q + 1) (by omega)
      have := (h8.mono _ b e h5 hb he).2
      rw [h6, lenOf_csr hc]
      simpa [slenOf, startOf, hc, h7, hb, he] using this
    · intro hl k q t hk ho
      obtain ⟨ft, hft, h4, h5, h6⟩ := hLl t q ho
      rw [h6, lenOf_fixed hl, hFw s t _ _ h2 hft]
  obtain ⟨sons, hS⟩ := forRanks_total (fun r (x : Map × Arr.Array α × Arr.Array α) =>
      sonResize z ty u maps (infos.map (fun l => l.map (·.2))) r x.1 x.2.1 x.2.2)
    (maps.zip (fathers.zip w.sons)) 0 (by
    intro i x hx
    obtain ⟨so', h1, _⟩ := hSone i x hx
    rw [Nat.zero_add]
    exact ⟨so', h1⟩)
  obtain ⟨hSl, hSg⟩ := (forRanks_ok _ _ _ _).1 hS
  have hslen : sons.length = lens.length := by rw [hSl]; simp [h.len, hflen, hw.sl]
  have hSo : ∀ (s : Nat) (ms : Map) (fs so : Arr.Array α), maps[s]? = some ms → fathers[s]? = some fs →
      sons[s]? = some so → SonOk ty fs so ms.ghostIndex.length ∧
      ∀ (k : Nat) (q : Int) (t : Nat), ms.ghostIndex[k]? = some q → Owns lens t q → lenOf ty so k = L t q := by
    intro s ms fs so hm hf hs
    have hsl : s < w.sons.length := by
      have := (List.getElem?_eq_some_iff.1 hs).1
      rw [hw.sl]; omega
    have hz := get_zip hm (get_zip hf (show w.sons[s]? = some w.sons[s] by simp [hsl]))
    obtain ⟨so', h1, h2, h3⟩ := hSone s _ hz
    obtain ⟨y, hy1, hy2⟩ := hSg s _ hz
    rw [Nat.zero_add] at hy2
    simp only at h1 hy2
    rw [h1] at hy2
    rw [hs] at hy1
    cases hy1
    cases Res.ok.inj hy2
    exact ⟨h2, h3⟩
  -- datatypes
  have hTone : ∀ (r : Nat) (mr : Map) (fa so : Arr.Array α), maps[r]? = some mr → fathers[r]? = some fa →
      sons[r]? = some so → _ := fun r mr fa so hm hf hs =>
    mkTypes_spec h hm (hFf r fa hf).1 (hSo r mr fa so hm hf hs).1
  have hmz : ∀ (r : Nat) (x : Map × List (Nat × Nat) × Arr.Array α), (maps.zip (infos.zip sons))[r]? = some x →
      ∃ fa, maps[r]? = some x.1 ∧ fathers[r]? = some fa ∧ sons[r]? = some x.2.2 ∧
      x.2.1 = x.1.pushingIndexGlobal.map (fun q =>
        (startOf ty fa (locRow lens r q), lenOf ty fa (locRow lens r q))) := by
    intro r x hx
    obtain ⟨mr, info, so⟩ := x
    obtain ⟨h1, h23⟩ := zip_get hx
    obtain ⟨h2, h3⟩ := zip_get h23
    obtain ⟨fa, hfa⟩ := hfat r (by rw [← h.len]; exact (List.getElem?_eq_some_iff.1 h1).1)
    refine ⟨fa, h1, hfa, h3, ?_⟩
    have := hIo r mr fa h1 hfa
    rw [h2] at this
    exact Option.some.inj this
  have hcr : createTypes z ty u maps w = (do
      let types ← forRanks (fun _ (x : Map × List (Nat × Nat) × Arr.Array α) =>
        mkTypes ty maps.length x.1 x.2.1 x.2.2) 0 (maps.zip (infos.zip sons))
      .ok (⟨fathers, sons⟩, types)) := by
    rw [createTypes, hF, Res.ok_bind, hI, Res.ok_bind, hS, Res.ok_bind]
  have hub : ∀ (i : Nat) (x : Map × List (Nat × Nat) × Arr.Array α), (maps.zip (infos.zip sons))[i]? = some x →
      mkTypes ty maps.length x.1 x.2.1 x.2.2 ≠ .ub := by
    intro i x hx
    obtain ⟨fa, h1, h2, h3, h4⟩ := hmz i x hx
    rw [h4]
    rcases hTone i x.1 fa x.2.2 h1 h2 h3 with ⟨h5, _⟩ | ⟨t, h5, _⟩ <;> rw [h5] <;> simp
  have hrow : ∀ (r s : Nat) (fa so : Arr.Array α) (ms : Map) (k : Nat) (q : Int), fathers[r]? = some fa →
      sons[s]? = some so → maps[s]? = some ms → ms.ghostIndex[k]? = some q → Owns lens r q →
      slenOf ty so k = slenOf ty fa (locRow lens r q) ∧ lenOf ty so k = lenOf ty fa (locRow lens r q) := by
    intro r s fa so ms k q hf hs hm hk ho
    obtain ⟨fs, hfs⟩ := hfat s (by rw [← h.len]; exact (List.getElem?_eq_some_iff.1 hm).1)
    obtain ⟨h1, h2⟩ := hSo s ms fs so hm hfs hs
    have h3 : lenOf ty so k = lenOf ty fa (locRow lens r q) := by
      rw [h2 k q r hk ho]; simp [L, hf]
    refine ⟨?_, h3⟩
    by_cases hc : ty.layout = .csr
    · rw [← lenOf_csr hc, ← lenOf_csr hc]; exact h3
    · rw [slenOf_table hc, slenOf_table hc, h1.width hc]
      exact hFw s r _ _ hfs hf
  refine ⟨fathers, sons, hflen, hslen, ?_, ?_⟩
  · intro r fa hfa
    obtain ⟨fa', h1, h2, h3, h4, _⟩ := hFo r fa hfa
    exact ⟨fa', h1, h3, h4, h2⟩
  · cases hT : forRanks (fun _ (x : Map × List (Nat × Nat) × Arr.Array α) =>
        mkTypes ty maps.length x.1 x.2.1 x.2.2) 0 (maps.zip (infos.zip sons)) with
    | ub => exact absurd hT (forRanks_ne_ub _ _ 0 hub)
    | abort =>
      left
      refine ⟨by rw [hcr, hT]; rfl, ?_⟩
      obtain ⟨i, x, hx, ha⟩ := forRanks_abort _ _ 0 hub hT
      obtain ⟨fa, h1, h2, h3, h4⟩ := hmz i x hx
      simp only [h4] at ha
      rcases hTone i x.1 fa x.2.2 h1 h2 h3 with ⟨_, h6⟩ | ⟨t, h5, _⟩
      · have hsn := hSo i x.1 fa x.2.2 h1 h2 h3
        exact ⟨i, x.2.2, x.1, h1, h6.1, h6.2, hsn.1.flat, hsn.1.size, fun k q r fr hk ho hfr =>
          (hrow r i fr x.2.2 x.1 k q hfr h3 h1 hk ho).1⟩
      · rw [h5] at ha; cases ha
    | ok types =>
      right
      obtain ⟨hTl, hTg⟩ := (forRanks_ok _ _ _ _).1 hT
      have hil : infos.length = lens.length := by rw [hIl, hmf]
      have htl : types.length = lens.length := by rw [hTl]; simp [h.len, hil, hslen]
      have hTo : ∀ (r : Nat) (t : Types), types[r]? = some t → ∃ mr fa so, maps[r]? = some mr ∧
          fathers[r]? = some fa ∧ sons[r]? = some so ∧
          mkTypes ty maps.length mr (mr.pushingIndexGlobal.map (fun q =>
            (startOf ty fa (locRow lens r q), lenOf ty fa (locRow lens r q)))) so = .ok t := by
        intro r t ht
        have hr : r < lens.length := by
          have := (List.getElem?_eq_some_iff.1 ht).1; omega
        have hrz : r < (maps.zip (infos.zip sons)).length := by rw [← hTl]; omega
        obtain ⟨y, hy1, hy2⟩ := hTg r _ (List.getElem?_eq_getElem hrz)
        obtain ⟨fa, h1, h2, h3, h4⟩ := hmz r _ (List.getElem?_eq_getElem hrz)
        rw [ht] at hy1; cases hy1
        refine ⟨_, fa, _, h1, h2, h3, ?_⟩
        rw [← h4]; exact hy2
      refine ⟨types, by rw [hcr, hT]; rfl, hflen, hslen, htl, hFf, ?_, ?_, ?_, ?_⟩
      · intro s so ms hs hm
        obtain ⟨fs, hfs⟩ := hfat s (by rw [← h.len]; exact (List.getElem?_eq_some_iff.1 hm).1)
        have := (hSo s ms fs so hm hfs hs).1
        exact ⟨this.flat, this.size⟩
      · exact hrow
      · intro r s t fa ms ht hf hm
        obtain ⟨mr, fa', so, h1, h2, h3, h4⟩ := hTo r t ht
        have hf' : fathers[r]? = some fa := hf
        rw [hf'] at h2; cases h2
        rcases hTone r mr fa so h1 hf' h3 with ⟨h5, _⟩ | ⟨t', h5, h6, h7⟩
        · rw [h5] at h4; cases h4
        · rw [h5] at h4; cases Res.ok.inj h4
          exact h6 s ms hm
      · intro r s t so ms b e ht hs hm hr hb he
        obtain ⟨mr, fa', so', h1, h2, h3, h4⟩ := hTo s t ht
        have hs' : sons[s]? = some so := hs
        rw [hs'] at h3; cases h3
        rw [hm] at h1; cases h1
        rcases hTone s ms fa' so hm h2 hs' with ⟨h5, _⟩ | ⟨t', h5, h6, h7⟩
        · rw [h5] at h4; cases h4
        · rw [h5] at h4; cases Res.ok.inj h4
          exact h7 r b e hr hb he

end DNDSR.Tran
