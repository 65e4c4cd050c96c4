import Verif.Proof.FacesFinal

/-!
# Faces over all ranks (C71)
-/

namespace DNDSR.Faces

open DNDSR.Elem DNDSR.IMap DNDSR.MeshAdj DNDSR.Part DNDSR.Tran

theorem localSlot_of {per : Bool} {cl nl : List Nat} {G : List Cell} {gc : GOM} {ranks : List RankIn} (hD : Distributed per cl nl G gc ranks)
    {r : Nat} {x : RankIn} (hx : ranks[r]? = some x) {l i j : Nat} {a s : Slot} (hi : Is cl r x l i) (ha : IsSlot per G i j a)
    (e : s = rename (nameOf x.nodeMap) a) : LocalSlot nl r x.nodeMap.ghostIndex a s := by
  subst e
  refine ⟨rfl, rfl, by simp [rename], ?_⟩
  intro p n v hn hv
  simp only [rename, List.getElem?_map, hn, Option.map_some, Option.some.injEq] at hv
  subst hv
  exact (slot_nodes hD hx hi ha n (List.mem_of_getElem? hn)).2

/-- what all ranks have before the exchange and after it: the faces of the ranks, the mapping of the faces, and the
numbering -/
theorem faces_world (per : Bool) (srt : Sorter) (hs : Sorts srt) (cl nl : List Nat) (G : List Cell) (gc : GOM) (ranks : List RankIn)
    (hD : Distributed per cl nl G gc ranks) :
    ∃ (ins : List Interp) (gf : GOM) (maps : List Map) (outs : List RankOut),
      forRanks (fun r (x : RankIn) => buildFaces per srt x.nNodes x.cellMap gc r ranks.length x.nOwn x.cells) 0 ranks = .ok ins ∧
      World per cl nl G gc ranks ins ∧ Built (lensOf ins) gf ∧ createPush gf (lensOf ins) (pushOf ins) = .ok maps ∧
      (∀ (r : Nat) (o : RankOut), outs[r]? = some o → maps[r]? = some o.faceMap) ∧ maps.length = outs.length ∧
      outs.map (·.nFaces) = lensOf ins ∧
      (∀ (r q : Nat) (p : Interp) (o : RankOut) (f f' : Face), ins[r]? = some p → outs[r]? = some o → p.faces[q]? = some f →
        o.faces[q]? = some f' → f'.first = f.first) ∧
      interpolate per srt gc ranks = .ok outs ∧ Numbered per cl nl G ranks outs (number per cl G ranks ins) := by
  have hu0 : Part.unInit < 0 := by decide
  -- the faces of each rank
  obtain ⟨outs, e1, l1, h1⟩ := N2C.forRanks_all (fun r (x : RankIn) => buildFaces per srt x.nNodes x.cellMap gc r ranks.length x.nOwn x.cells)
    (fun r x o => RankFaces per cl G ranks r x o) ranks (fun r x hx => rank_build hD hx hs)
  have hW : World per cl nl G gc ranks outs := ⟨hD, l1, h1⟩
  have hro : ∀ {r : Nat} {x : RankIn}, ranks[r]? = some x → ∃ o, outs[r]? = some o := by
    intro r x hx
    have : r < outs.length := by rw [l1]; exact (List.getElem?_eq_some_iff.1 hx).1
    exact ⟨_, List.getElem?_eq_getElem this⟩
  have hrx : ∀ {r : Nat} {o : Interp}, outs[r]? = some o → ∃ x, ranks[r]? = some x := by
    intro r o ho
    have : r < ranks.length := by rw [← l1]; exact (List.getElem?_eq_some_iff.1 ho).1
    exact ⟨_, List.getElem?_eq_getElem this⟩
  -- in global numbers
  obtain ⟨glob, e2, l2, h2⟩ := N2C.forRanks_all (fun _ (x : RankIn × Interp) => forRanks (fun _ f => faceToGlobal x.1 f) 0 x.2.faces)
    (fun r x gs => gs.length = x.2.faces.length ∧ ∀ (q : Nat) (g : Face), gs[q]? = some g →
      ∃ i j a, GFace per cl G ranks outs (before (lensOf outs) r + q) g r i j a) (ranks.zip outs) (by
      rintro r ⟨x, o⟩ hxo
      obtain ⟨hx, ho⟩ := List.getElem?_zip_eq_some.1 hxo
      obtain ⟨gs, e, l, h⟩ := N2C.forRanks_all (fun _ f => faceToGlobal x f)
        (fun q _ g => ∃ i j a, GFace per cl G ranks outs (before (lensOf outs) r + q) g r i j a) o.faces
        (fun q f hf => toGlobal hW hx ho hf)
      refine ⟨gs, e, l, ?_⟩
      intro q g hg
      have : q < o.faces.length := by rw [← l]; exact (List.getElem?_eq_some_iff.1 hg).1
      exact h q _ g (List.getElem?_eq_getElem this) hg)
  have l2' : glob.length = ranks.length := by rw [l2, List.length_zip, l1]; omega
  have hglob : ∀ {r : Nat} {gs : List Face}, glob[r]? = some gs → ∃ x o, ranks[r]? = some x ∧ outs[r]? = some o ∧ gs.length = o.faces.length ∧
      ∀ (q : Nat) (g : Face), gs[q]? = some g → ∃ i j a, GFace per cl G ranks outs (before (lensOf outs) r + q) g r i j a := by
    intro r gs hgs
    have hr : r < ranks.length := by rw [← l2']; exact (List.getElem?_eq_some_iff.1 hgs).1
    have hx := List.getElem?_eq_getElem hr
    obtain ⟨o, ho⟩ := hro hx
    obtain ⟨a, b⟩ := h2 r (_, o) gs (List.getElem?_zip_eq_some.2 ⟨hx, ho⟩) hgs
    exact ⟨_, o, hx, ho, a, b⟩
  -- the mapping
  obtain ⟨gf, hgf⟩ := built_exists (lensOf outs)
  obtain ⟨maps, e3, l3, h3⟩ := push_map hW hgf
  -- the ghost faces
  obtain ⟨sons, e4, l4, h4⟩ := N2C.forRanks_all (fun _ (m : Map) => forRanks (fun _ q => fetch gf glob q) 0 m.ghostIndex)
    (fun s m fs => fs.length = m.ghostIndex.length ∧ ∀ (k : Nat) (Q : Int) (g : Face), m.ghostIndex[k]? = some Q → fs[k]? = some g →
      ∃ r i j a, GFace per cl G ranks outs Q g r i j a) maps (by
      intro s m hm
      obtain ⟨hc, hmem⟩ := h3 s m hm
      obtain ⟨fs, e, l, h⟩ := N2C.forRanks_all (fun _ q => fetch gf glob q)
        (fun _ Q g => ∃ r i j a, GFace per cl G ranks outs Q g r i j a) m.ghostIndex (by
          intro k Q hQ
          obtain ⟨r, o, row, q, ho, hrow, hq, rfl⟩ := (hmem Q).1 (List.mem_of_getElem? hQ)
          obtain ⟨x, hx⟩ := hrx ho
          obtain ⟨q', e', hlt⟩ := ((h1 r x o hx ho).sendSorted s row hrow).2 _ hq
          have : q' = q := by omega
          subst this
          have hgl : r < glob.length := by rw [l2']; exact (List.getElem?_eq_some_iff.1 hx).1
          have hgs := List.getElem?_eq_getElem hgl
          obtain ⟨x', o', hx', ho', hl, hG⟩ := hglob hgs
          rw [ho] at ho'; cases ho'
          have hql : q' < glob[r].length := by rw [hl]; exact hlt
          obtain ⟨i, j, a, hGF⟩ := hG q' _ (List.getElem?_eq_getElem hql)
          refine ⟨_, ?_, r, i, j, a, hGF⟩
          refine fetch_eq hgf hGF.owns hgs ?_
          rw [show ((before (lensOf outs) r : Int) + (q' : Int) - before (lensOf outs) r).toNat = q' by omega]
          exact List.getElem?_eq_getElem hql)
      exact ⟨fs, e, l, h⟩)
  -- in local numbers
  have l4' : sons.length = ranks.length := by rw [l4, l3, l1]
  have l3' : maps.length = ranks.length := by rw [l3, l1]
  obtain ⟨locs, e5, l5, h5⟩ := N2C.forRanks_all (fun _ (x : RankIn × List Face × List Face) => do
      let own ← forRanks (fun _ f => faceToLocal x.1 f) 0 x.2.1
      let son ← forRanks (fun _ f => faceToLocal x.1 f) 0 x.2.2
      .ok (own, son))
    (fun s x p => p.1.length = x.2.1.length ∧ p.2.length = x.2.2.length ∧
      (∀ (q : Nat) (g f : Face), x.2.1[q]? = some g → p.1[q]? = some f → faceToLocal x.1 g = .ok f ∧
        ∃ i j a l, GFace per cl G ranks outs (before (lensOf outs) s + q) g s i j a ∧ Is cl s x.1 l i ∧ LFace per cl G s x.1 g f l a) ∧
      ∀ (k : Nat) (g f : Face), x.2.2[k]? = some g → p.2[k]? = some f → faceToLocal x.1 g = .ok f ∧
        ∃ r i j a l, (∀ m Q, maps[s]? = some m → m.ghostIndex[k]? = some Q → GFace per cl G ranks outs Q g r i j a) ∧ IsSlot per G i j a ∧
          Is cl s x.1 l i ∧ LFace per cl G s x.1 g f l a) (ranks.zip (glob.zip sons)) (by
      rintro s ⟨x, gs, fs⟩ hxs
      obtain ⟨hx, hgf'⟩ := List.getElem?_zip_eq_some.1 hxs
      obtain ⟨hgs, hfs⟩ := List.getElem?_zip_eq_some.1 hgf'
      obtain ⟨x', o, hx', ho, hl, hG⟩ := hglob hgs
      rw [hx] at hx'; cases hx'
      have hml : s < maps.length := by rw [l3']; exact (List.getElem?_eq_some_iff.1 hx).1
      have hm := List.getElem?_eq_getElem hml
      obtain ⟨hc, hmem⟩ := h3 s _ hm
      obtain ⟨hl4, hG4⟩ := h4 s _ fs hm hfs
      obtain ⟨own, eo, lo, ho1⟩ := N2C.forRanks_all (fun _ f => faceToLocal x f)
        (fun q g f => faceToLocal x g = .ok f ∧ ∃ i j a l, GFace per cl G ranks outs (before (lensOf outs) s + q) g s i j a ∧ Is cl s x l i ∧
          LFace per cl G s x g f l a) gs (by
          intro q g hg
          obtain ⟨i, j, a, hGF⟩ := hG q g hg
          obtain ⟨l, hl⟩ := is_of_owns hW hx hGF.own
          obtain ⟨f, ef, hLF⟩ := toLocal hW hx hGF hl (fun i' e' => by
            rcases hGF.second with ⟨e, _⟩ | ⟨i2, j2, b, e, hb, hsb, _⟩
            · have := unInit_neg; omega
            · have : i' = i2 := by omega
              subst this
              exact is_of_near hW hx hGF.isSlot hb hsb hGF.own)
          exact ⟨f, ef, ef, i, j, a, l, hGF, hl, hLF⟩)
      obtain ⟨son, es, ls, hs1⟩ := N2C.forRanks_all (fun _ f => faceToLocal x f)
        (fun k g f => faceToLocal x g = .ok f ∧ ∃ r i j a l, (∀ m Q, maps[s]? = some m → m.ghostIndex[k]? = some Q → GFace per cl G ranks outs Q g r i j a) ∧
          IsSlot per G i j a ∧ Is cl s x l i ∧ LFace per cl G s x g f l a) fs (by
          intro k g hg
          have hkl : k < maps[s].ghostIndex.length := by rw [← hl4]; exact (List.getElem?_eq_some_iff.1 hg).1
          have hQ := List.getElem?_eq_getElem hkl
          obtain ⟨r, i, j, a, hGF⟩ := hG4 k _ g hQ hg
          obtain ⟨hne, i', j', b, e', hb, hsb, _, ho'⟩ := ghost_face hW hmem (List.mem_of_getElem? hQ) hGF
          obtain ⟨l', hl'⟩ := is_of_owns hW hx ho'
          obtain ⟨l, hl⟩ := is_of_near hW hx hb hGF.isSlot (sf_symm hD hGF.isSlot hb hsb) ho'
          obtain ⟨f, ef, hLF⟩ := toLocal hW hx hGF hl (fun i2 e2 => by
            have : i2 = i' := by omega
            subst this; exact ⟨l', hl'⟩)
          refine ⟨f, ef, ef, r, i, j, a, l, ?_, hGF.isSlot, hl, hLF⟩
          intro m Q hm' hQ'
          rw [hm] at hm'; cases hm'
          rw [hQ] at hQ'; cases hQ'
          exact hGF)
      exact ⟨(own, son), by simp only [eo, es, Res.ok_bind], lo, ls, ho1, hs1⟩)
  have l5' : locs.length = ranks.length := by rw [l5, List.length_zip, List.length_zip, l2', l4']; omega
  -- everything about one rank
  have hall : ∀ {s : Nat} {x : RankIn}, ranks[s]? = some x → ∃ o gs m fs own son, outs[s]? = some o ∧ glob[s]? = some gs ∧ maps[s]? = some m ∧
      sons[s]? = some fs ∧ locs[s]? = some (own, son) := by
    intro s x hx
    have hl := (List.getElem?_eq_some_iff.1 hx).1
    obtain ⟨o, ho⟩ := hro hx
    exact ⟨o, _, _, _, locs[s].1, locs[s].2, ho, List.getElem?_eq_getElem (by omega), List.getElem?_eq_getElem (by omega),
      List.getElem?_eq_getElem (by omega), List.getElem?_eq_getElem (by omega)⟩
  have hloc : ∀ {s : Nat} {x : RankIn} {gs fs own son : List Face}, ranks[s]? = some x → glob[s]? = some gs → sons[s]? = some fs →
      locs[s]? = some (own, son) → own.length = gs.length ∧ son.length = fs.length ∧
      (∀ (q : Nat) (g f : Face), gs[q]? = some g → own[q]? = some f → faceToLocal x g = .ok f ∧
        ∃ i j a l, GFace per cl G ranks outs (before (lensOf outs) s + q) g s i j a ∧ Is cl s x l i ∧ LFace per cl G s x g f l a) ∧
      ∀ (k : Nat) (g f : Face), fs[k]? = some g → son[k]? = some f → faceToLocal x g = .ok f ∧
        ∃ r i j a l, (∀ m Q, maps[s]? = some m → m.ghostIndex[k]? = some Q → GFace per cl G ranks outs Q g r i j a) ∧ IsSlot per G i j a ∧
          Is cl s x l i ∧ LFace per cl G s x g f l a := by
    intro s x gs fs own son hx hgs hfs hl
    exact h5 s (x, gs, fs) (own, son) (List.getElem?_zip_eq_some.2 ⟨hx, List.getElem?_zip_eq_some.2 ⟨hgs, hfs⟩⟩) hl
  -- writing the ghost faces
  obtain ⟨c2fs, e6, l6, h6⟩ := N2C.forRanks_all (fun _ (x : (RankIn × Interp) × List Face × List Face) =>
      fillFaces x.1.1.cells x.1.1.nOwn x.2.1.length x.1.2.c2f x.2.2)
    (fun s x c2f => Shaped x.1.1.cells c2f ∧ ∀ m, maps[s]? = some m →
      (∀ (l j : Nat) (e : Int), Gives c2f l j e → e = unInit ∨ e = -1 ∨ (0 ≤ e ∧ e < m.mainSize + m.ghostIndex.length)) ∧
      ∀ (l i j : Nat) (a : Slot), Is cl s x.1.1 l i → Owns cl s i → IsSlot per G i j a →
        ∃ v, Gives c2f l j v ∧ 0 ≤ v ∧ LocalName (lensOf outs) s m.ghostIndex (number per cl G ranks outs i j) v) ((ranks.zip outs).zip locs) (by
      rintro s ⟨⟨x, o⟩, own, son⟩ hxs
      obtain ⟨hxo, hl⟩ := List.getElem?_zip_eq_some.1 hxs
      obtain ⟨hx, ho⟩ := List.getElem?_zip_eq_some.1 hxo
      obtain ⟨o', gs, m, fs, own', son', ho', hgs, hm, hfs, hl'⟩ := hall hx
      rw [ho] at ho'; cases ho'
      rw [hl] at hl'; cases hl'
      obtain ⟨p1, p2, p3, p4⟩ := hloc hx hgs hfs hl
      obtain ⟨hc, hmem⟩ := h3 s m hm
      obtain ⟨q1, q2⟩ := h4 s m fs hm hfs
      obtain ⟨x', o', hx', ho', hgl, _⟩ := hglob hgs
      rw [ho] at ho'; cases ho'
      obtain ⟨c2f, ec, hS, hE, hN⟩ := rank_fill hW hx ho hc.faithful hmem q1 p2 q2 (fun k g f hg hf => (p4 k g f hg hf).1)
      refine ⟨c2f, ?_, hS, ?_⟩
      · simp only [p1, hgl, ec]
      · intro m' hm'
        rw [hm] at hm'; cases hm'
        exact ⟨hE, hN⟩)
  have l6' : c2fs.length = ranks.length := by rw [l6, List.length_zip, List.length_zip, l1, l5']; omega
  -- to global numbers
  obtain ⟨globC, e7, l7, h7⟩ := N2C.forRanks_all (fun _ (x : Map × List (List Int)) => MeshAdj.mapRows (fun _ v => MeshAdj.local2Global x.1 v) x.2)
    (fun s x rows => RowsRel (fun v q => MeshAdj.local2Global x.1 v = .ok q) x.2 rows) (maps.zip c2fs) (by
      rintro s ⟨m, c2f⟩ hmc
      obtain ⟨hm, hc⟩ := List.getElem?_zip_eq_some.1 hmc
      have hsl : s < ranks.length := by rw [← l3']; exact (List.getElem?_eq_some_iff.1 hm).1
      have hx := List.getElem?_eq_getElem hsl
      obtain ⟨o, gs, m', fs, own, son, ho, hgs, hm', hfs, hl⟩ := hall hx
      obtain ⟨_, h⟩ := h6 s ((_, o), own, son) c2f (List.getElem?_zip_eq_some.2 ⟨List.getElem?_zip_eq_some.2 ⟨hx, ho⟩, hl⟩) hc
      obtain ⟨hE, _⟩ := h m hm
      have hF := (h3 s m hm).1.faithful
      obtain ⟨rows, er⟩ := mapRows_total (fun _ v => MeshAdj.local2Global m v) c2f (by
        intro row hrow j v hv
        obtain ⟨l, hl⟩ := List.mem_iff_getElem?.1 hrow
        simp only [MeshAdj.local2Global]
        rcases hE l j v ⟨row, hl, hv⟩ with e | e | ⟨e, e'⟩
        · exact ⟨v, by rw [if_pos (by rw [e]; rfl)]⟩
        · subst e; exact ⟨_, by rw [if_neg (by decide), if_pos (by omega)]⟩
        · rw [if_neg (by omega), if_neg (by omega), hF.apply_main, if_pos (by omega)]
          exact ⟨_, rfl⟩)
      exact ⟨rows, er, mapRows_rel _ _ _ _ er (fun row _ j u w _ h => h)⟩)
  have l7' : globC.length = ranks.length := by rw [l7, List.length_zip, l3', l6']; omega
  -- the rows of own cells
  have hown : ∀ {s : Nat} {x : RankIn} {rows : List (List Int)}, ranks[s]? = some x → globC[s]? = some rows →
      rows.length = x.cells.length ∧ (∀ (l i j : Nat) (a : Slot), Is cl s x l i → Owns cl s i → IsSlot per G i j a →
        Gives rows l j (number per cl G ranks outs i j)) ∧
      ∀ (l i : Nat) (C : Cell) (row : List Int), Is cl s x l i → G[i]? = some C → rows[l]? = some row → row.length = (numFaces C.type).toNat := by
    intro s x rows hx hrows
    obtain ⟨o, gs, m, fs, own, son, ho, hgs, hm, hfs, hl⟩ := hall hx
    have hcl : s < c2fs.length := by rw [l6']; exact (List.getElem?_eq_some_iff.1 hx).1
    have hc := List.getElem?_eq_getElem hcl
    obtain ⟨hS, h⟩ := h6 s ((x, o), own, son) _ (List.getElem?_zip_eq_some.2 ⟨List.getElem?_zip_eq_some.2 ⟨hx, ho⟩, hl⟩) hc
    obtain ⟨_, hN⟩ := h m hm
    obtain ⟨r1, r2⟩ := h7 s (m, _) rows (List.getElem?_zip_eq_some.2 ⟨hm, hc⟩) hrows
    refine ⟨by rw [← r1]; exact hS.1, ?_, ?_⟩
    rotate_left
    · intro l i C row hi hC hrow
      have hcll := List.getElem?_eq_getElem (l := x.cells) (i := l) (by
        have h1 := (List.getElem?_eq_some_iff.1 hrow).1
        have h2 : c2fs[s].length = x.cells.length := hS.1
        have h3 : c2fs[s].length = rows.length := r1
        omega)
      have hcl2 := List.getElem?_eq_getElem (l := c2fs[s]) (i := l) (by
        have h1 := (List.getElem?_eq_some_iff.1 hrow).1
        have h3 : c2fs[s].length = rows.length := r1
        omega)
      rw [← (r2 l _ row hcl2 hrow).1, hS.2 l _ _ hcll hcl2, ((hD.holds s x hx).cells l i _ C hcll hC hi).type]
    intro l i j a hi hoi ha
    obtain ⟨v, ⟨row, hv1, hv2⟩, hv0, hvn⟩ := hN l i j a hi hoi ha
    have hll : l < rows.length := by rw [← r1]; exact (List.getElem?_eq_some_iff.1 hv1).1
    obtain ⟨r3, r4⟩ := r2 l row _ hv1 (List.getElem?_eq_getElem hll)
    have hjl : j < rows[l].length := by rw [← r3]; exact (List.getElem?_eq_some_iff.1 hv2).1
    have r5 := r4 j v _ hv2 (List.getElem?_eq_getElem hjl)
    obtain ⟨_, _, _, _, _, _, _, _, _, hNum⟩ := number_spec hW ha
    have hq0 := (owns_range hNum.owns).1
    simp only [MeshAdj.local2Global] at r5
    rw [if_neg (by omega), if_neg (by omega), (h3 s m hm).1.faithful.apply_of_name hvn hq0 hv0] at r5
    exact ⟨_, List.getElem?_eq_getElem hll, by rw [List.getElem?_eq_getElem hjl, Res.ok.inj r5]⟩
  -- the pull and the last conversion
  obtain ⟨fin, e8, l8, h8⟩ := N2C.forRanks_all (fun _ (x : (RankIn × List (List Int)) × Map × List Face × List Face) => do
      let ghost ← forRanks (fun _ q => fetch gc ((ranks.zip globC).map (fun x => x.2.take x.1.nOwn)) q) 0 x.1.1.cellMap.ghostIndex
      let c2f ← MeshAdj.mapRows (fun _ q => MeshAdj.global2Local x.2.1 q) (x.1.2 ++ ghost)
      .ok (⟨x.2.2.1 ++ x.2.2.2, x.2.2.1.length, c2f, x.2.1⟩ : RankOut))
    (fun s x out => out.faces = x.2.2.1 ++ x.2.2.2 ∧ out.nFaces = x.2.2.1.length ∧ out.faceMap = x.2.1 ∧
      (∀ (l i j : Nat) (a : Slot), Is cl s x.1.1 l i → IsSlot per G i j a → ∃ v, Gives out.c2f l j v ∧
        LocalName (lensOf outs) s x.2.1.ghostIndex (number per cl G ranks outs i j) v) ∧
      (∀ (l i : Nat) (C : Cell) (row : List Int), Is cl s x.1.1 l i → G[i]? = some C → out.c2f[l]? = some row → row.length = (numFaces C.type).toNat) ∧
      out.c2f.length = x.1.1.cells.length)
    ((ranks.zip ((ranks.zip globC).map (fun x => x.2.take x.1.nOwn))).zip (maps.zip locs)) (by
      rintro s ⟨⟨x, ow⟩, m, own, son⟩ hxs
      obtain ⟨hxo, hml⟩ := List.getElem?_zip_eq_some.1 hxs
      obtain ⟨hx, how⟩ := List.getElem?_zip_eq_some.1 hxo
      obtain ⟨hm, hl⟩ := List.getElem?_zip_eq_some.1 hml
      have hH := hD.holds s x hx
      -- rows of own cells on their owners
      have hrowsOf : ∀ {ρ : Nat} {i : Nat}, Owns cl ρ i → ∃ y rows, ranks[ρ]? = some y ∧ globC[ρ]? = some rows ∧
          ((ranks.zip globC).map (fun x => x.2.take x.1.nOwn))[ρ]? = some (rows.take y.nOwn) ∧
          ∃ row, (rows.take y.nOwn)[((i : Int) - before cl ρ).toNat]? = some row ∧
            (∀ (j : Nat) (a : Slot), IsSlot per G i j a → row[j]? = some (number per cl G ranks outs i j)) ∧
            ∀ C, G[i]? = some C → row.length = (numFaces C.type).toNat := by
        intro ρ i hρ
        obtain ⟨y, _, hy, _⟩ := rank_exists hW hρ.1
        have hgl : ρ < globC.length := by rw [l7']; exact (List.getElem?_eq_some_iff.1 hy).1
        have hg := List.getElem?_eq_getElem hgl
        have hz : (ranks.zip globC)[ρ]? = some (y, globC[ρ]) := List.getElem?_zip_eq_some.2 ⟨hy, hg⟩
        obtain ⟨hl1, hgv, hgw⟩ := hown hy hg
        have hHy := hD.holds ρ y hy
        have ho2 := (hHy.cellMap.faithful.owns_iff i).1 hρ
        have hIs : Is cl ρ y ((i : Int) - before cl ρ).toNat i := Or.inl ⟨hρ, by omega⟩
        have hlt : ((i : Int) - before cl ρ).toNat < globC[ρ].length := by
          rw [hl1, hHy.size]; omega
        have hnO : ((i : Int) - before cl ρ).toNat < y.nOwn := by simp only [RankIn.nOwn]; omega
        refine ⟨y, _, hy, hg, by rw [List.getElem?_map, hz]; rfl, globC[ρ][((i : Int) - before cl ρ).toNat], ?_, ?_,
          fun C hC => hgw _ i C _ hIs hC (List.getElem?_eq_getElem hlt)⟩
        · rw [List.getElem?_take_of_lt hnO, List.getElem?_eq_getElem hlt]
        · intro j a ha
          obtain ⟨row, g1, g2⟩ := hgv _ i j a hIs hρ ha
          rw [List.getElem?_eq_getElem hlt] at g1; cases g1
          exact g2
      obtain ⟨ghost, eg, lg, hg⟩ := N2C.forRanks_all (fun _ q => fetch gc ((ranks.zip globC).map (fun x => x.2.take x.1.nOwn)) q)
        (fun _ q row => (∀ (i j : Nat) (a : Slot), q = i → IsSlot per G i j a → row[j]? = some (number per cl G ranks outs i j)) ∧
          ∀ (i : Nat) (C : Cell), q = i → G[i]? = some C → row.length = (numFaces C.type).toNat)
        x.cellMap.ghostIndex (by
          intro k q hq
          obtain ⟨q0, q1⟩ := hH.cellMap.faithful.loc.range q (List.mem_of_getElem? hq)
          obtain ⟨ρ, hρ⟩ := owns_exists q0 q1
          obtain ⟨i, rfl⟩ : ∃ i : Nat, q = i := ⟨q.toNat, by omega⟩
          obtain ⟨y, rows, hy, hgr, ht, row, hrow, hrj, hrw⟩ := hrowsOf hρ
          refine ⟨row, fetch_eq hD.built hρ ht hrow, ?_, ?_⟩
          rotate_left
          · intro i' C e hC
            have : i' = i := by omega
            subst this
            exact hrw C hC
          intro i' j a e ha
          have : i' = i := by omega
          subst this
          exact hrj j a ha)
      have hF := (h3 s m hm).1.faithful
      obtain ⟨c2f, ec⟩ := mapRows_total (fun _ q => MeshAdj.global2Local m q) (ow ++ ghost) (by
        intro row hrow j q hq
        by_cases hu : q = Part.unInit
        · exact ⟨q, by simp only [MeshAdj.global2Local, if_pos hu]⟩
        · obtain ⟨v, hv, _⟩ := hF.global2Local_eq q hu
          exact ⟨v, hv⟩)
      obtain ⟨c1, c2⟩ := mapRows_rel _ (fun q v => MeshAdj.global2Local m q = .ok v) _ _ ec (fun row _ j u w _ h => h)
      refine ⟨⟨own ++ son, own.length, c2f, m⟩, by simp only [eg, ec, Res.ok_bind], rfl, rfl, rfl, ?_⟩
      -- the row of a cell
      have hsl : s < globC.length := by rw [l7']; exact (List.getElem?_eq_some_iff.1 hx).1
      have hgs := List.getElem?_eq_getElem hsl
      have how' : ow = globC[s].take x.nOwn := by
        have hz : (ranks.zip globC)[s]? = some (x, globC[s]) := List.getElem?_zip_eq_some.2 ⟨hx, hgs⟩
        rw [List.getElem?_map, hz] at how
        simpa using how.symm
      obtain ⟨hl1, _⟩ := hown hx hgs
      have hol : ow.length = x.nOwn := by
        rw [how', List.length_take, hl1, hH.size]; simp only [RankIn.nOwn]; omega
      have hrow : ∀ {l i : Nat}, Is cl s x l i → ∃ row, (ow ++ ghost)[l]? = some row ∧
          (∀ (j : Nat) (a : Slot), IsSlot per G i j a → row[j]? = some (number per cl G ranks outs i j)) ∧
          ∀ C, G[i]? = some C → row.length = (numFaces C.type).toNat := by
        intro l i hi
        by_cases hlo : l < x.nOwn
        · have hoi := (is_own hH hi).1 hlo
          obtain ⟨y, rows, hy, hgr, ht, row, hrow, hrj, hrw⟩ := hrowsOf hoi
          rw [hx] at hy; cases hy
          rw [how] at ht
          have ht' : ow = rows.take x.nOwn := Option.some.inj ht
          rw [← ht'] at hrow
          refine ⟨row, ?_, hrj, hrw⟩
          rw [List.getElem?_append_left (by omega)]
          rcases hi with ⟨_, e⟩ | ⟨hc, _⟩ | ⟨hc, _⟩
          · rw [show ((i : Int) - before cl s).toNat = l by omega] at hrow; exact hrow
          · exact absurd hoi hc
          · exact absurd hoi hc
        · rcases hi with ⟨hoi, _⟩ | ⟨_, k, hk, n, hn, e⟩ | ⟨_, _, e⟩
          · exact absurd ((is_own hH (Or.inl ⟨hoi, by assumption⟩)).2 hoi) hlo
          · have hn' := hH.cellMap.faithful.size
            rw [hn] at hn'; cases hn'
            have hkl : k < ghost.length := by rw [lg]; exact (List.getElem?_eq_some_iff.1 hk).1
            refine ⟨ghost[k], ?_, fun j a ha => (hg k _ _ hk (List.getElem?_eq_getElem hkl)).1 i j a rfl ha,
              fun C hC => (hg k _ _ hk (List.getElem?_eq_getElem hkl)).2 i C rfl hC⟩
            rw [List.getElem?_append_right (by omega), hol, show l - x.nOwn = k by simp only [RankIn.nOwn] at *; omega]
            exact List.getElem?_eq_getElem hkl
          · omega
      refine ⟨?_, ?_, ?_⟩
      rotate_left
      · intro l i C row hi hC hr
        obtain ⟨row', hr1, _, hr3⟩ := hrow hi
        rw [← (c2 l row' row hr1 hr).1]; exact hr3 C hC
      · rw [List.length_append] at c1
        have := hH.size
        simp only [RankIn.nOwn] at hol
        show c2f.length = x.cells.length
        omega
      intro l i j a hi ha
      obtain ⟨row, hr1, hr2, _⟩ := hrow hi
      have hr2 := hr2 j a ha
      have hll : l < c2f.length := by rw [← c1]; exact (List.getElem?_eq_some_iff.1 hr1).1
      obtain ⟨c3, c4⟩ := c2 l row _ hr1 (List.getElem?_eq_getElem hll)
      have hjl : j < c2f[l].length := by rw [← c3]; exact (List.getElem?_eq_some_iff.1 hr2).1
      have c5 := c4 j _ _ hr2 (List.getElem?_eq_getElem hjl)
      obtain ⟨_, _, _, _, _, _, _, _, _, hNum⟩ := number_spec hW ha
      have hq0 := (owns_range hNum.owns).1
      obtain ⟨v, hv, hvn⟩ := hF.global2Local_eq (number per cl G ranks outs i j) (by omega)
      have c6 := Res.ok.inj (hv.symm.trans c5)
      exact ⟨v, ⟨_, List.getElem?_eq_getElem hll, by rw [List.getElem?_eq_getElem hjl, c6]⟩, hvn⟩)
  have l8' : fin.length = ranks.length := by
    rw [l8, List.length_zip, List.length_zip, List.length_map, List.length_zip, List.length_zip, l7', l3', l5']; omega
  -- everything about the output of one rank
  have hfin : ∀ {s : Nat} {out : RankOut}, fin[s]? = some out → ∃ x o gs m fs own son, ranks[s]? = some x ∧ outs[s]? = some o ∧ glob[s]? = some gs ∧
      maps[s]? = some m ∧ sons[s]? = some fs ∧ locs[s]? = some (own, son) ∧ out.faces = own ++ son ∧ out.nFaces = o.faces.length ∧
      own.length = o.faces.length ∧ out.faceMap = m ∧
      (∀ (l i j : Nat) (a : Slot), Is cl s x l i → IsSlot per G i j a → ∃ v, Gives out.c2f l j v ∧
        LocalName (lensOf outs) s m.ghostIndex (number per cl G ranks outs i j) v) ∧
      (∀ (l i : Nat) (C : Cell) (row : List Int), Is cl s x l i → G[i]? = some C → out.c2f[l]? = some row → row.length = (numFaces C.type).toNat) ∧
      out.c2f.length = x.cells.length := by
    intro s out hout
    have hsl : s < ranks.length := by rw [← l8']; exact (List.getElem?_eq_some_iff.1 hout).1
    have hx := List.getElem?_eq_getElem hsl
    obtain ⟨o, gs, m, fs, own, son, ho, hgs, hm, hfs, hl⟩ := hall hx
    have hgl : s < globC.length := by omega
    have hz : ((ranks.zip globC).map (fun x => x.2.take x.1.nOwn))[s]? = some (globC[s].take ranks[s].nOwn) := by
      have hz : (ranks.zip globC)[s]? = some (ranks[s], globC[s]) := List.getElem?_zip_eq_some.2 ⟨hx, List.getElem?_eq_getElem hgl⟩
      rw [List.getElem?_map, hz]; rfl
    obtain ⟨f1, f2, f3, f4⟩ := h8 s ((_, _), m, own, son) out (List.getElem?_zip_eq_some.2 ⟨List.getElem?_zip_eq_some.2 ⟨hx, hz⟩,
      List.getElem?_zip_eq_some.2 ⟨hm, hl⟩⟩) hout
    obtain ⟨_, o', _, ho', hgl, _⟩ := hglob hgs
    rw [ho] at ho'; cases ho'
    have hol := (hloc hx hgs hfs hl).1
    exact ⟨_, o, gs, m, fs, own, son, hx, ho, hgs, hm, hfs, hl, f1, by rw [f2]; simp only []; omega, by omega, f3, f4⟩
  have hlens : fin.map (·.nFaces) = lensOf outs := by
    refine List.ext_getElem? fun s => ?_
    simp only [List.getElem?_map]
    cases hf : fin[s]? with
    | none =>
        have : outs[s]? = none := by
          rw [List.getElem?_eq_none_iff] at hf ⊢; omega
        rw [this]; rfl
    | some out =>
        obtain ⟨x, o, _, _, _, _, _, _, ho, _, _, _, _, _, hn, _⟩ := hfin hf
        rw [ho]; simp [hn]
  -- the own faces are those built before the exchange
  have hfirst : ∀ (r q : Nat) (p : Interp) (o : RankOut) (f f' : Face), outs[r]? = some p → fin[r]? = some o → p.faces[q]? = some f →
      o.faces[q]? = some f' → f'.first = f.first := by
    intro r q p o f f' hp ho hf hf'
    obtain ⟨x, p', gs, m, fs, own, son, hx, hp', hgs, hm, hfs, hl, ef, en, eo, _⟩ := hfin ho
    rw [hp] at hp'; cases hp'
    have hH := hD.holds r x hx
    have hql : q < p.faces.length := (List.getElem?_eq_some_iff.1 hf).1
    rw [ef, List.getElem?_append_left (by omega)] at hf'
    obtain ⟨p1, _, p3, _⟩ := hloc hx hgs hfs hl
    have hgq := List.getElem?_eq_getElem (l := gs) (i := q) (by omega)
    obtain ⟨_, i, j, a, l, hG, hi, hL⟩ := p3 q _ f' hgq hf'
    obtain ⟨gs', hgs', eg⟩ := ((forRanks_ok _ _ _ _).1 e2).2 r (x, p) (List.getElem?_zip_eq_some.2 ⟨hx, hp⟩)
    rw [hgs] at hgs'; cases hgs'
    obtain ⟨g, hg, eg'⟩ := ((forRanks_ok _ _ _ _).1 eg).2 q f hf
    rw [hgq] at hg
    have hg : gs[q] = g := Option.some.inj hg
    obtain ⟨l0, i0, j0, a0, f1, f2, _⟩ := (h1 r x p hx hp).face q f hf
    simp only [faceToGlobal] at eg'
    obtain ⟨ns, _, eg'⟩ := (Res.bind_ok_iff _ _ _).1 eg'
    obtain ⟨A, eA, eg'⟩ := (Res.bind_ok_iff _ _ _).1 eg'
    obtain ⟨B, _, eg'⟩ := (Res.bind_ok_iff _ _ _).1 eg'
    rw [f1, MeshAdj.faceCellToGlobal, if_neg (by omega), apply_is hH f2] at eA
    cases eA
    have e := hG.first
    rw [hg, ← Res.ok.inj eg'] at e
    have : i0 = i := by simp only at e; omega
    subst this
    rw [hL.first, f1, is_unique hH f2 hi]
  refine ⟨outs, gf, maps, fin, e1, hW, hgf, e3, ?_, by omega, hlens, hfirst, ?_, ?_⟩
  · intro r o ho
    obtain ⟨x, p', gs, m, fs, own, son, hx, hp', hgs, hm, hfs, hl, ef, en, eo, em, _⟩ := hfin ho
    rw [em]; exact hm
  · unfold interpolate
    simp only [e1, e2, Res.ok_bind]
    rw [hgf]
    simp only [Res.ok_bind]
    rw [e3]
    simp only [e4, e5, e6, e7, e8, Res.ok_bind]
  -- the face a rank holds under a local number
  have hface : ∀ {s : Nat} {x : RankIn} {m : Map} {g f : Face} {Q : Int} {r i j l v : Nat} {a : Slot}, ranks[s]? = some x →
      GFace per cl G ranks outs Q g r i j a → Is cl s x l i → LFace per cl G s x g f l a → LocalName (lensOf outs) s m.ghostIndex Q v →
      (Owns (lensOf outs) s Q ∨ ∃ i' : Nat, g.second = i' ∧ Owns cl s i') →
      ∃ (l i j : Nat) (a : Slot), f.first = l ∧ LocalName cl s x.cellMap.ghostIndex i l ∧ IsSlot per G i j a ∧
      LocalName (lensOf outs) s m.ghostIndex (number per cl G ranks outs i j) v ∧ LocalSlot nl s x.nodeMap.ghostIndex a f.slot ∧
      (∀ ρ, Owns (lensOf outs) ρ (number per cl G ranks outs i j) → Owns cl ρ i) ∧
      ((f.second = unInit ∧ Owns (lensOf outs) s (number per cl G ranks outs i j) ∧
          ∀ (i' j' : Nat) (b : Slot), IsSlot per G i' j' b → number per cl G ranks outs i' j' = number per cl G ranks outs i j →
          (i', j') = (i, j)) ∨
       ∃ (l' i' j' : Nat) (b : Slot), f.second = l' ∧ LocalName cl s x.cellMap.ghostIndex i' l' ∧ IsSlot per G i' j' b ∧
         (i', j') ≠ (i, j) ∧ number per cl G ranks outs i' j' = number per cl G ranks outs i j ∧
         (Owns (lensOf outs) s (number per cl G ranks outs i j) ∨ Owns cl s i')) := by
    intro s x m g f Q r i j l v a hx hG hi hL hv hor
    have hnum := number_eq hW hG.num
    refine ⟨l, i, j, a, hL.first, hi, hG.isSlot, by rw [hnum]; exact hv, localSlot_of hD hx hi hG.isSlot hL.slot, ?_, ?_⟩
    · intro ρ hρ
      rw [hnum] at hρ
      rw [owns_unique hρ hG.owns]; exact hG.own
    rcases hG.second with ⟨e, h⟩ | ⟨i', j', b, e, hb, hsb, hne⟩
    · rcases hL.second with ⟨_, e'⟩ | ⟨_, i2, e', _⟩
      · refine Or.inl ⟨e', ?_, ?_⟩
        · rcases hor with h | ⟨i2, e2, _⟩
          · rw [hnum]; exact h
          · have := unInit_neg; omega
        intro i' j' b hb hn
        have h1 := number_spec hW hb
        rw [hn] at h1
        exact h i' j' b hb (hasNum_same hW (number_spec hW hG.isSlot) h1 hG.isSlot hb)
      · have := unInit_neg; omega
    · rcases hL.second with ⟨e', _⟩ | ⟨l', i2, e', e2, hi2⟩
      · have := unInit_neg; omega
      · have : i2 = i' := by omega
        subst this
        refine Or.inr ⟨l', i2, j', b, e2, hi2, hb, hne, (hasNum_unique hW (number_spec hW hG.isSlot) (number_spec hW hb) hG.isSlot hb hsb).symm, ?_⟩
        rcases hor with h | ⟨i3, e3, h⟩
        · left; rw [hnum]; exact h
        · right
          have : i3 = i2 := by omega
          subst this; exact h
  constructor
  · exact l8'
  · intro i j a ha
    rw [hlens]
    obtain ⟨_, _, _, _, _, _, _, _, _, h⟩ := number_spec hW ha
    exact owns_range h.owns
  · rw [hlens]
    intro q hq
    obtain ⟨r, hr⟩ := owns_exists hq.1 hq.2
    obtain ⟨i, j, a, x, o, q', l, f, h, _⟩ := num_used hW hr
    exact ⟨i, j, a, h.slot, number_eq hW ⟨_, _, _, _, _, _, _, _, _, h⟩⟩
  · intro i j i' j' a b ha hb
    constructor
    · intro e
      have h1 := number_spec hW hb
      rw [← e] at h1
      exact hasNum_same hW (number_spec hW ha) h1 ha hb
    · exact hasNum_unique hW (number_spec hW ha) (number_spec hW hb) ha hb
  · rw [hlens]
    intro i j r a ha ho
    obtain ⟨a1, r', x, o, q, l, i0, j0, a0, h⟩ := number_spec hW ha
    have : r = r' := owns_unique ho h.owns
    subst this
    have := slot_unique ha h.slot
    subst this
    refine ⟨⟨i0, j0, a0, h.slot0, sf_symm hD h.slot0 ha h.same, h.own⟩, ?_⟩
    intro i' j' b s hb hs ho'
    exact (h.of_same hW hb hs).low hW ho'
  · rw [hlens]
    intro s x out l i j a hx hout hi ha
    obtain ⟨x', o, gs, m, fs, own, son, hx', ho, hgs, hm, hfs, hl, _, _, _, em, hc, _⟩ := hfin hout
    rw [hx] at hx'; cases hx'
    obtain ⟨v, hv, hvn⟩ := hc l i j a hi ha
    rw [em]
    refine ⟨v, hv, hvn, ?_⟩
    intro hoi
    have hcl : s < c2fs.length := by rw [l6']; exact (List.getElem?_eq_some_iff.1 hx).1
    obtain ⟨_, h⟩ := h6 s ((x, o), own, son) _ (List.getElem?_zip_eq_some.2 ⟨List.getElem?_zip_eq_some.2 ⟨hx, ho⟩, hl⟩) (List.getElem?_eq_getElem hcl)
    obtain ⟨w, _, hw0, hwn⟩ := (h m hm).2 l i j a hi hoi ha
    rw [(h3 s m hm).1.faithful.name_unique hvn hwn]
    exact hw0
  · intro s x out l i C row hx hout hi hC hrow
    obtain ⟨x', o, gs, m, fs, own, son, hx', ho, hgs, hm, hfs, hl, _, _, _, em, _, hw, _⟩ := hfin hout
    rw [hx] at hx'; cases hx'
    exact hw l i C row hi hC hrow
  · intro s x out hx hout
    obtain ⟨x', o, gs, m, fs, own, son, hx', ho, hgs, hm, hfs, hl, _, _, _, em, _, _, hw⟩ := hfin hout
    rw [hx] at hx'; cases hx'
    exact hw
  · rw [hlens]
    intro s out hout
    obtain ⟨x, o, gs, m, fs, own, son, hx, ho, hgs, hm, hfs, hl, ef, en, eo, em, hc⟩ := hfin hout
    obtain ⟨p1, p2, _⟩ := hloc hx hgs hfs hl
    have := (h4 s m fs hm hfs).1
    refine ⟨by rw [em]; exact (h3 s m hm).1, ?_⟩
    rw [ef, en, em, List.length_append]; omega
  · rw [hlens]
    intro s x out v f hx hout hf
    obtain ⟨x', o, gs, m, fs, own, son, hx', ho, hgs, hm, hfs, hl, ef, en, eo, em, hc⟩ := hfin hout
    rw [hx] at hx'; cases hx'
    obtain ⟨p1, p2, p3, p4⟩ := hloc hx hgs hfs hl
    rw [em]
    rw [ef] at hf
    by_cases hv : v < own.length
    · rw [List.getElem?_append_left hv] at hf
      have hg := List.getElem?_eq_getElem (l := gs) (i := v) (by omega)
      obtain ⟨_, i, j, a, l, hG, hi, hL⟩ := p3 v _ f hg hf
      exact hface hx hG hi hL (Or.inl ⟨hG.owns, by omega⟩) (Or.inl hG.owns)
    · rw [List.getElem?_append_right (by omega)] at hf
      have hk := (List.getElem?_eq_some_iff.1 hf).1
      have hg := List.getElem?_eq_getElem (l := fs) (i := v - own.length) (by omega)
      have hq1 := (h4 s m fs hm hfs).1
      have hQ := List.getElem?_eq_getElem (l := m.ghostIndex) (i := v - own.length) (by omega)
      obtain ⟨_, r, i, j, a, l, hG, _, hi, hL⟩ := p4 _ _ f hg hf
      have hGF := hG m _ hm hQ
      obtain ⟨hne, i', _, _, e', _, _, _, ho'⟩ := ghost_face hW (h3 s m hm).2 (List.mem_of_getElem? hQ) hGF
      refine hface hx hGF hi hL (Or.inr (Or.inl ⟨fun h => hne (owns_unique h hGF.owns), _, hQ, o.faces.length, ?_, by omega⟩)) (Or.inr ⟨i', e', ho'⟩)
      simp [lensOf, ho]

/-- **C71**.  On a mesh distributed over the ranks in which every rank holds copies of the face neighbours of its own
cells, building faces on all ranks runs to the end, and there is one global numbering `F` of the faces of the whole
mesh: two slots on whatever ranks have the same number exactly if they are the same face, every number is used, a face
belongs to the lowest rank owning one of its cells, and every rank's `cell2face`, `face2node` and `face2cell` say so in
local names, for own cells and for copies. -/
theorem faces_global (per : Bool) (srt : Sorter) (hs : Sorts srt) (cl nl : List Nat) (G : List Cell) (gc : GOM) (ranks : List RankIn)
    (hD : Distributed per cl nl G gc ranks) :
    ∃ outs F, interpolate per srt gc ranks = .ok outs ∧ Numbered per cl nl G ranks outs F := by
  obtain ⟨_, _, _, outs, _, _, _, _, _, _, _, _, hI, hN⟩ := faces_world per srt hs cl nl G gc ranks hD
  exact ⟨outs, _, hI, hN⟩

/-! ## A mesh that meets the hypotheses: two quadrilaterals on two ranks -/

namespace TwoQuads

/-- a mapping built by asking for `reqs` -/
theorem pulls {lens : List Nat} {g : GOM} (hg : Built lens g) (reqs : List (List Int)) (hn : reqs.length = lens.length)
    (hr : ∀ req ∈ reqs, ∀ q ∈ req, 0 ≤ q ∧ q < lens.sum) (hs : ∀ req ∈ reqs, req.Pairwise (· ≤ ·) ∧ unique req = req)
    (hb : ((reqs.map List.length).sum : Int) ≤ Defines.intMax 32) :
    ∃ maps : List Map, createPull g lens reqs = .ok maps ∧ maps.length = lens.length ∧ ∀ (r : Nat) (m : Map), maps[r]? = some m →
      Collective lens r m ∧ lens[r]? = some m.mainSize ∧ reqs[r]? = some m.ghostIndex := by
  obtain ⟨maps, h⟩ := ghost_map_exists hg reqs hn hr hb
  obtain ⟨hl, hM⟩ := createPull_spec hg reqs hn maps h
  refine ⟨maps, h, hl, fun r m hm => ⟨.pull g reqs maps hg hn h hm, (hM r m hm).size, ?_⟩⟩
  obtain ⟨q, hq, hL⟩ := (hM r m hm).req
  obtain ⟨h1, h2⟩ := hs q (List.mem_of_getElem? hq)
  have := hL.gi
  rw [sortIdx_of_sorted q h1, h2] at this
  rw [hq, ← this]
  rfl

/-- the mesh: nodes 0, 1, 2, 3 of rank 0 and 4, 5 of rank 1 -/
def mesh : List Cell := [⟨.quad4, [0, 1, 2, 3], [0#8, 1#8, 1#8, 0#8]⟩, ⟨.quad4, [1, 4, 5, 2], [0#8, 0#8, 0#8, 0#8]⟩]

def cells0 : List Cell := [⟨.quad4, [0, 1, 2, 3], [0#8, 1#8, 1#8, 0#8]⟩, ⟨.quad4, [1, 4, 5, 2], [0#8, 0#8, 0#8, 0#8]⟩]
def cells1 : List Cell := [⟨.quad4, [3, 0, 1, 4], [0#8, 0#8, 0#8, 0#8]⟩, ⟨.quad4, [2, 3, 4, 5], [0#8, 1#8, 1#8, 0#8]⟩]

def slots (per : Bool) : List (Nat × Nat × Slot) :=
  (List.range 2).flatMap fun i => (List.range 4).map fun j => (i, j, slot per (mesh[i]?.getD ⟨.unknown, [], []⟩) j)

theorem mem_slots {per : Bool} {i j : Nat} {a : Slot} (h : IsSlot per mesh i j a) : (i, j, a) ∈ slots per := by
  obtain ⟨c, hc, hj, rfl⟩ := h
  have hi : i < 2 := (List.getElem?_eq_some_iff.1 hc).1
  have ht : c.type = .quad4 := by
    match i, hi with
    | 0, _ => cases hc; rfl
    | 1, _ => cases hc; rfl
  rw [ht] at hj
  simp only [slots, List.mem_flatMap, List.mem_map, List.mem_range]
  exact ⟨i, hi, j, hj, by rw [hc]; rfl⟩

def Alike (a b : Slot) : Prop := a.type = b.type ∧ (corners a).Perm (corners b)
instance (a b : Slot) : Decidable (Alike a b) := by unfold Alike; infer_instance

theorem owns_dec {lens : List Nat} {r : Nat} {q : Int} : Owns lens r q ↔ r < lens.length ∧ (before lens r : Int) ≤ q ∧ q < before lens r + lens[r]?.getD 0 := by
  constructor
  · rintro ⟨h, h1, h2⟩
    exact ⟨h, h1, by rw [List.getElem?_eq_getElem h]; exact h2⟩
  · rintro ⟨h, h1, h2⟩
    exact ⟨h, h1, by rw [List.getElem?_eq_getElem h] at h2; exact h2⟩

instance (lens : List Nat) (r : Nat) (q : Int) : Decidable (Owns lens r q) := decidable_of_iff _ owns_dec.symm

/-- the name of `q` -/
theorem name_own' {lens : List Nat} {r : Nat} {gs : List Int} {q v : Int} (h : Owns lens r q) (e : v = q - before lens r) :
    LocalName lens r gs q v := Or.inl ⟨h, e⟩

theorem name_ghost {lens : List Nat} {r : Nat} {gs : List Int} {q v : Int} (h : ¬ Owns lens r q) (k n : Nat) (hk : gs[k]? = some q)
    (hn : lens[r]? = some n) (e : v = n + k) : LocalName lens r gs q v := Or.inr (Or.inl ⟨h, k, hk, n, hn, e⟩)

/-- every node of every cell has the name the rank gives it -/
def named (r : Nat) (gs : List Int) (C c : Cell) : Bool :=
  c.type == C.type && c.pbi == C.pbi && c.nodes.length == C.nodes.length &&
  (C.nodes.zip c.nodes).all fun p => decide (0 ≤ p.2) && (if Owns [4, 2] r p.1 then decide (p.2 = p.1 - before [4, 2] r)
    else (List.range gs.length).any fun k => decide (gs[k]? = some p.1) && decide (p.2 = ([4, 2][r]?.getD 0 : Nat) + k))

theorem localized_of {r : Nat} (hr : r < 2) {gs : List Int} {C c : Cell} (h : named r gs C c = true) : Localized [4, 2] r gs C c := by
  simp only [named, Bool.and_eq_true, beq_iff_eq, List.all_eq_true, decide_eq_true_eq] at h
  obtain ⟨⟨⟨h1, h2⟩, h3⟩, h4⟩ := h
  refine ⟨h1, h2, h3, ?_⟩
  intro p q v hq hv
  obtain ⟨h5, h6⟩ := h4 (q, v) (List.mem_of_getElem? (List.getElem?_zip_eq_some.2 ⟨hq, hv⟩))
  refine ⟨h5, ?_⟩
  split at h6
  · rename_i ho
    exact name_own' ho (by simpa using h6)
  · rename_i ho
    simp only [List.any_eq_true, Bool.and_eq_true, decide_eq_true_eq] at h6
    obtain ⟨k, _, hk, e⟩ := h6
    exact name_ghost ho k _ hk (by rw [List.getElem?_eq_getElem (by simpa using hr)]) (by rw [e, List.getElem?_eq_getElem (by simpa using hr)]; rfl)

/-- which cell is which -/
theorem which {r : Nat} {gs : List Int} {i l : Nat} (h : LocalName [1, 1] r gs i l) :
    (Owns [1, 1] r i ∧ (l : Int) = i - before [1, 1] r) ∨ (¬ Owns [1, 1] r i ∧ ∃ k : Nat, gs[k]? = some (i : Int) ∧ ∃ n, [1, 1][r]? = some n ∧ l = n + k) := by
  rcases h with h | ⟨h, k, hk, n, hn, e⟩ | ⟨_, _, e⟩
  · exact Or.inl h
  · exact Or.inr ⟨h, k, hk, n, hn, by omega⟩
  · omega

theorem holds_of {r : Nat} (hr : r < 2) {x : RankIn} {gs ns : List Int} (hc : Collective [1, 1] r x.cellMap) (hn : Collective [4, 2] r x.nodeMap)
    (hgc : x.cellMap.ghostIndex = gs) (hgn : x.nodeMap.ghostIndex = ns) (hg : ∃ q, gs = [q] ∧ ¬ Owns [1, 1] r q) (hl : x.cells.length = 2)
    (hm : ∀ i l : Nat, i < 2 → l < 2 → (l = 0 ↔ i = r) → named r ns (mesh[i]?.getD ⟨.unknown, [], []⟩) (x.cells[l]?.getD ⟨.unknown, [], []⟩) = true) :
    Holds [1, 1] [4, 2] mesh r x := by
  obtain ⟨q, rfl, hq⟩ := hg
  have hsz : x.cellMap.mainSize = 1 := by
    have := hc.faithful.size
    match r, hr with
    | 0, _ => simpa using this.symm
    | 1, _ => simpa using this.symm
  refine ⟨hc, hn, ?_, by rw [hgc, hl, hsz]; rfl, ?_⟩
  · intro p hp
    rw [hgc] at hp
    simp only [List.mem_singleton] at hp
    subst hp; exact hq
  · intro l i c C hcc hC hname
    rw [hgc] at hname
    have hi : i < 2 := (List.getElem?_eq_some_iff.1 hC).1
    have hll : l < 2 := by rw [← hl]; exact (List.getElem?_eq_some_iff.1 hcc).1
    have hb : before [1, 1] r = r := by
      match r, hr with
      | 0, _ => rfl
      | 1, _ => rfl
    have hone : [1, 1][r]? = some 1 := by
      match r, hr with
      | 0, _ => rfl
      | 1, _ => rfl
    have hlr : l = 0 ↔ i = r := by
      rcases which hname with ⟨ho, e⟩ | ⟨ho, k, hk, n, hn', e⟩
      · obtain ⟨_, h1, h2⟩ := owns_dec.1 ho
        rw [hone, hb] at h2
        rw [hb] at h1 e
        simp only [Option.getD_some] at h2
        omega
      · rw [hone] at hn'; cases hn'
        have : i ≠ r := by
          rintro rfl
          exact ho (owns_dec.2 ⟨by simpa using hr, by rw [hb]; omega, by rw [hone, hb, Option.getD_some]; omega⟩)
        omega
    have := localized_of hr (hm i l hi hll hlr)
    rw [hC, hcc] at this
    rw [hgn]
    exact this

theorem names0 : ∀ i < 2, ∀ l < 2, (l = 0 ↔ i = 0) → named 0 [4, 5] (mesh[i]?.getD ⟨.unknown, [], []⟩) (cells0[l]?.getD ⟨.unknown, [], []⟩) = true := by
  decide +kernel

theorem names1 : ∀ i < 2, ∀ l < 2, (l = 0 ↔ i = 1) → named 1 [0, 1, 2, 3] (mesh[i]?.getD ⟨.unknown, [], []⟩) (cells1[l]?.getD ⟨.unknown, [], []⟩) = true := by
  decide +kernel

/-- the two ranks of the mesh, whether or not the bits count -/
theorem exists_ranks_nodes (per : Bool) : ∃ gc ranks, Distributed per [1, 1] [4, 2] mesh gc ranks ∧ ranks.length = 2 ∧
    ∃ gn, Built [4, 2] gn ∧ createPull gn [4, 2] [[4, 5], [0, 1, 2, 3]] = .ok (ranks.map (·.nodeMap)) ∧
      ∀ (r : Nat) (x : RankIn), ranks[r]? = some x → [[4, 5], [0, 1, 2, 3]][r]? = some x.nodeMap.ghostIndex := by
  obtain ⟨gc, hgc⟩ := built_exists [1, 1]
  obtain ⟨gn, hgn⟩ := built_exists [4, 2]
  obtain ⟨cm, _, hcl, hcm⟩ := pulls hgc [[1], [0]] rfl (by decide) (by decide) (by decide)
  obtain ⟨nm, hnp, hnl, hnm⟩ := pulls hgn [[4, 5], [0, 1, 2, 3]] rfl (by decide) (by decide) (by decide)
  match cm, hcl, nm, hnl with
  | [c0, c1], _, [n0, n1], _ =>
  obtain ⟨a1, a2, a3⟩ := hcm 0 c0 rfl
  obtain ⟨b1, b2, b3⟩ := hcm 1 c1 rfl
  obtain ⟨d1, d2, d3⟩ := hnm 0 n0 rfl
  obtain ⟨e1, e2, e3⟩ := hnm 1 n1 rfl
  have a3' : c0.ghostIndex = [1] := (Option.some.inj a3).symm
  have b3' : c1.ghostIndex = [0] := (Option.some.inj b3).symm
  have d3' : n0.ghostIndex = [4, 5] := (Option.some.inj d3).symm
  have e3' : n1.ghostIndex = [0, 1, 2, 3] := (Option.some.inj e3).symm
  refine ⟨gc, [⟨cells0, c0, n0⟩, ⟨cells1, c1, n1⟩], ⟨hgc, rfl, rfl, ?_, ?_, ?_, ?_, ?_⟩, rfl, gn, hgn, hnp, ?_⟩
  · intro C hC
    simp only [mesh, List.mem_cons, List.not_mem_nil, or_false] at hC
    rcases hC with rfl | rfl
    · exact ⟨⟨by decide, rfl, fun _ => rfl, by decide⟩, by decide⟩
    · exact ⟨⟨by decide, rfl, fun _ => rfl, by decide⟩, by decide⟩
  · intro i j i' j' a b ha hb ht hp
    have key : ∀ x ∈ slots per, ∀ y ∈ slots per, Alike x.2.2 y.2.2 → x.2.2.nodes.Perm y.2.2.nodes := by cases per <;> decide +kernel
    exact key _ (mem_slots ha) _ (mem_slots hb) ⟨ht, hp⟩
  · intro i1 j1 i2 j2 i3 j3 a b c ha hb hc h1 h2
    have key : ∀ x ∈ slots per, ∀ y ∈ slots per, ∀ z ∈ slots per, Alike x.2.2 y.2.2 → Alike x.2.2 z.2.2 →
        (x.1, x.2.1) = (y.1, y.2.1) ∨ (x.1, x.2.1) = (z.1, z.2.1) ∨ (y.1, y.2.1) = (z.1, z.2.1) := by cases per <;> decide +kernel
    exact key _ (mem_slots ha) _ (mem_slots hb) _ (mem_slots hc) ⟨h1.1, h1.2.1⟩ ⟨h2.1, h2.2.1⟩
  · intro r x hx
    match r, hx with
    | 0, hx =>
      cases hx
      exact holds_of (by decide) a1 d1 a3' d3' ⟨1, rfl, by decide⟩ rfl (fun i l hi hl h => names0 i hi l hl h)
    | 1, hx =>
      cases hx
      exact holds_of (by decide) b1 e1 b3' e3' ⟨0, rfl, by decide⟩ rfl (fun i l hi hl h => names1 i hi l hl h)
    | _ + 2, hx => simp at hx
  · intro r x i j i' j' a b hx ha hb _ ho ho'
    have hi' : i' < 2 := by obtain ⟨_, h, _⟩ := hb; exact (List.getElem?_eq_some_iff.1 h).1
    match r, hx with
    | 0, hx =>
      cases hx
      show (i' : Int) ∈ c0.ghostIndex
      rw [a3']
      match i', hi' with
      | 0, _ => exact absurd (by decide) ho'
      | 1, _ => decide
    | 1, hx =>
      cases hx
      show (i' : Int) ∈ c1.ghostIndex
      rw [b3']
      match i', hi' with
      | 0, _ => decide
      | 1, _ => exact absurd (by decide) ho'
    | _ + 2, hx => simp at hx
  · intro r x hx
    match r, hx with
    | 0, hx => cases hx; exact d3
    | 1, hx => cases hx; exact e3
    | _ + 2, hx => simp at hx

theorem exists_ranks (per : Bool) : ∃ gc ranks, Distributed per [1, 1] [4, 2] mesh gc ranks ∧ ranks.length = 2 := by
  obtain ⟨gc, ranks, hD, hl, _⟩ := exists_ranks_nodes per
  exact ⟨gc, ranks, hD, hl⟩

/-- the two cells share a face -/
theorem shared (per : Bool) : ∃ a b, IsSlot per mesh 0 1 a ∧ IsSlot per mesh 1 3 b ∧ SameFace per a b := by
  refine ⟨_, _, ⟨_, rfl, by decide, rfl⟩, ⟨_, rfl, by decide, rfl⟩, ?_, ?_, ?_⟩
  · cases per <;> rfl
  · cases per <;> decide +kernel
  · rintro rfl
    refine ⟨1#8, ?_⟩
    intro n x y hx hy
    have key : ∀ p ∈ (slot true (⟨.quad4, [0, 1, 2, 3], [0#8, 1#8, 1#8, 0#8]⟩ : Cell) 1).nodes.zip (slot true (⟨.quad4, [0, 1, 2, 3], [0#8, 1#8, 1#8, 0#8]⟩ : Cell) 1).pbi,
        ∀ q ∈ (slot true (⟨.quad4, [1, 4, 5, 2], [0#8, 0#8, 0#8, 0#8]⟩ : Cell) 3).nodes.zip (slot true (⟨.quad4, [1, 4, 5, 2], [0#8, 0#8, 0#8, 0#8]⟩ : Cell) 3).pbi,
        p.1 = q.1 → q.2 = p.2 ^^^ 1#8 := by decide +kernel
    exact key (n, x) hx (n, y) hy rfl

end TwoQuads

/-- the hypotheses of `faces_global` hold of two quadrilaterals on two ranks, periodic or not; the face between them
gets one number and belongs to rank 0, another face gets another number -/
example (per : Bool) (srt : Sorter) (hs : Sorts srt) : ∃ gc ranks outs F, interpolate per srt gc ranks = .ok outs ∧
    Numbered per [1, 1] [4, 2] TwoQuads.mesh ranks outs F ∧ F 0 1 = F 1 3 ∧ F 0 0 ≠ F 1 3 ∧ Owns (outs.map (·.nFaces)) 0 (F 1 3) := by
  obtain ⟨gc, ranks, hD, _⟩ := TwoQuads.exists_ranks per
  obtain ⟨outs, F, h, hN⟩ := faces_global per srt hs _ _ _ gc ranks hD
  obtain ⟨a, b, ha, hb, hab⟩ := TwoQuads.shared per
  have e : F 0 1 = F 1 3 := (hN.iff _ _ _ _ _ _ ha hb).2 hab
  refine ⟨gc, ranks, outs, F, h, hN, e, ?_, ?_⟩
  · intro e'
    have h0 : IsSlot per TwoQuads.mesh 0 0 _ := ⟨_, rfl, by decide, rfl⟩
    obtain ⟨_, h2, _⟩ := (hN.iff _ _ _ _ _ _ h0 ha).1 (e'.trans e.symm)
    obtain ⟨c, hc, _, rfl⟩ := ha
    cases hc
    revert h2
    cases per <;> decide +kernel
  · obtain ⟨r, hr⟩ := owns_exists (hN.range _ _ _ hb).1 (hN.range _ _ _ hb).2
    have h0 : r ≤ 0 := (hN.owner _ _ _ _ hb hr).2 0 1 a 0 ha (by
      refine ⟨hab.1.symm, hab.2.1.symm, fun hp => ?_⟩
      obtain ⟨v, hv⟩ := hab.2.2 hp
      exact ⟨v, fun n x y hx hy => by rw [hv n y x hy hx]; simp [BitVec.xor_assoc]⟩) (by decide)
    have : r = 0 := by omega
    rw [← this]; exact hr

end DNDSR.Faces
