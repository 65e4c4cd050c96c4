import Verif.Proof.FaceZonesRank
import Verif.Proof.FaceZonesAssert
import Verif.Proof.SweepsAll
import Mathlib.Data.List.ProdSigma
import Verif.Props.FacesGhost

/-!
# Boundary elements on the faces of all ranks (C92)
-/

namespace DNDSR.Faces

open DNDSR.Elem DNDSR.IMap DNDSR.MeshAdj DNDSR.Part
open DNDSR.Per (isPeriodic)

/-- **C92**.  On a distributed mesh whose boundary elements are on the ranks of their cells, building faces with the
boundary elements runs to the end on all ranks.  Every face has, on every rank that holds it, the information of the
element on the side of its first cell (zone 0 if there is none), whatever the order of the elements and wherever the two
sides of a periodic face are; every element with a boundary condition has its face, and the face has it. -/
theorem zones_global (per : Bool) (srt : Sorter) (hs : Sorts srt) (cl nl : List Nat) (G : List Cell) (gc : GOM) (ranks : List RankIn)
    (hD : Distributed per cl nl G gc ranks) (bnds : List (List BndRow)) (Z : Nat → Nat → Option Info) (hB : Bounded per cl nl G ranks bnds Z) :
    ∃ outs F zs, interpolate per srt gc ranks = .ok outs ∧ Numbered per cl nl G ranks outs F ∧
      faceZones per srt gc ranks bnds = .ok zs ∧ Zoned per cl nl G ranks bnds Z outs F zs := by
  obtain ⟨ins, gf, maps, outs, e1, hW, hgf, e3, hmaps, lm, hlens, hfirst, hI, hN⟩ := faces_world per srt hs cl nl G gc ranks hD
  refine ⟨outs, number per cl G ranks ins, ?_⟩
  have l1 := hW.outsLen
  have lb := hB.nranks
  have lo := hN.size
  have hpx : ∀ {r : Nat} {x : RankIn}, ranks[r]? = some x → ∃ p bs o, ins[r]? = some p ∧ bnds[r]? = some bs ∧ outs[r]? = some o := by
    intro r x hx
    have := (List.getElem?_eq_some_iff.1 hx).1
    exact ⟨_, _, _, List.getElem?_eq_getElem (by omega), List.getElem?_eq_getElem (by omega), List.getElem?_eq_getElem (by omega)⟩
  have hord : ∀ {r : Nat} {x : RankIn} {p : Interp}, ranks[r]? = some x → ins[r]? = some p → ∀ f ∈ p.faces, f.second = unInit ∨ f.first ≤ f.second := by
    intro r x p hx hp f hf
    obtain ⟨p', hp', e⟩ := ((forRanks_ok _ _ _ _).1 e1).2 r x hx
    rw [hp] at hp'; cases hp'
    exact rank_order hD hx hs (by rw [Nat.zero_add] at e; exact e) hf
  -- the elements on the faces of each rank
  obtain ⟨ws, e2, l2, h2⟩ := N2C.forRanks_all (fun _ (x : (RankIn × Interp) × List BndRow) => putBnds x.1.1.nOwn x.1.2 x.2)
    (fun r x z => ZInv x.1.2.faces x.2 (Target per cl nl G r x.1.1 x.1.2 x.2) x.2.length z) ((ranks.zip ins).zip bnds) (by
      rintro r ⟨⟨x, p⟩, bs⟩ h
      obtain ⟨hxp, hbs⟩ := List.getElem?_zip_eq_some.1 h
      obtain ⟨hx, hp⟩ := List.getElem?_zip_eq_some.1 hxp
      exact putBnds_spec (rank_targets hW hB hx hp hbs))
  have l2' : ws.length = ranks.length := by rw [l2, List.length_zip, List.length_zip]; omega
  have hw : ∀ {r : Nat} {x : RankIn} {p : Interp} {bs : List BndRow} {w : ZSt}, ranks[r]? = some x → ins[r]? = some p → bnds[r]? = some bs →
      ws[r]? = some w → ZInv p.faces bs (Target per cl nl G r x p bs) bs.length w := by
    intro r x p bs w hx hp hbs hw
    exact h2 r ((x, p), bs) w (List.getElem?_zip_eq_some.2 ⟨List.getElem?_zip_eq_some.2 ⟨hx, hp⟩, hbs⟩) hw
  -- the row of a face on its owner
  have hrow : ∀ {Q : Int} {ρ : Nat}, Owns (lensOf ins) ρ Q → ∃ x p bs w, ranks[ρ]? = some x ∧ ins[ρ]? = some p ∧ bnds[ρ]? = some bs ∧ ws[ρ]? = some w ∧
      ∃ (y : Info), w.info[(Q - before (lensOf ins) ρ).toNat]? = some y := by
    intro Q ρ hρ
    have hρl : ρ < ins.length := by have := hρ.1; simpa [lensOf] using this
    have hx := List.getElem?_eq_getElem (l := ranks) (i := ρ) (by omega)
    obtain ⟨p, bs, o, hp, hbs, ho⟩ := hpx hx
    have hwr := List.getElem?_eq_getElem (l := ws) (i := ρ) (by omega)
    refine ⟨_, p, bs, _, hx, hp, hbs, hwr, ?_⟩
    have hlen := (hw hx hp hbs hwr).lenI
    have hlt : (Q - before (lensOf ins) ρ).toNat < ws[ρ].info.length := by
      obtain ⟨h1, h2, h3⟩ := hρ
      have hp' := (List.getElem?_eq_some_iff.1 hp).2
      simp only [lensOf, List.getElem_map, hp'] at h3
      rw [hlen]; simp only [lensOf] at *; omega
    exact ⟨_, List.getElem?_eq_getElem hlt⟩
  -- the ghost faces
  obtain ⟨zs, e4, l4, h4⟩ := N2C.forRanks_all (fun _ (x : ZSt × Map) => do
      let son ← forRanks (fun _ q => fetch gf (ws.map (·.info)) q) 0 x.2.ghostIndex
      (.ok ⟨x.1.info ++ son, x.1.bnd2face, x.1.face2bnd⟩ : Res ZSt))
    (fun r x z => z.bnd2face = x.1.bnd2face ∧ z.face2bnd = x.1.face2bnd ∧ ∃ son : List Info, z.info = x.1.info ++ son ∧
      son.length = x.2.ghostIndex.length ∧ ∀ (k : Nat) (Q : Int) (y : Info), x.2.ghostIndex[k]? = some Q → son[k]? = some y →
        fetch gf (ws.map (·.info)) Q = .ok y) (ws.zip maps) (by
      rintro r ⟨w, m⟩ h
      obtain ⟨hwr, hm⟩ := List.getElem?_zip_eq_some.1 h
      replace hm : maps[r]? = some m := hm
      obtain ⟨o, ho⟩ : ∃ o, outs[r]? = some o := ⟨_, List.getElem?_eq_getElem (by have := (List.getElem?_eq_some_iff.1 hm).1; omega)⟩
      have hm' := hmaps r _ ho
      rw [hm] at hm'; cases hm'
      obtain ⟨son, es, ls, hsn⟩ := N2C.forRanks_all (fun _ q => fetch gf (ws.map (·.info)) q)
        (fun _ Q y => fetch gf (ws.map (·.info)) Q = .ok y) o.faceMap.ghostIndex (by
          intro k Q hQ
          obtain ⟨q0, q1⟩ := (face_faithful hN ho).loc.range Q (List.mem_of_getElem? hQ)
          obtain ⟨ρ, hρ⟩ := owns_exists q0 q1
          rw [hlens] at hρ
          obtain ⟨x, p, bs, w', _, _, _, hw', y, hy⟩ := hrow hρ
          have := fetch_eq (rows := ws.map (·.info)) hgf hρ (by rw [List.getElem?_map, hw']; rfl) hy
          exact ⟨y, this, this⟩)
      exact ⟨⟨w.info ++ son, w.bnd2face, w.face2bnd⟩, by simp only [es, Res.ok_bind], rfl, rfl, son, rfl, ls, hsn⟩)
  have l4' : zs.length = ranks.length := by rw [l4, List.length_zip]; omega
  have hz : ∀ {r : Nat} {x : RankIn} {z : ZSt}, ranks[r]? = some x → zs[r]? = some z → ∃ p bs o w, ins[r]? = some p ∧ bnds[r]? = some bs ∧
      outs[r]? = some o ∧ ws[r]? = some w ∧ ZInv p.faces bs (Target per cl nl G r x p bs) bs.length w ∧
      z.bnd2face = w.bnd2face ∧ z.face2bnd = w.face2bnd ∧ p.faces.length = o.nFaces ∧ ∃ son : List Info, z.info = w.info ++ son ∧
      son.length = o.faceMap.ghostIndex.length ∧ ∀ (k : Nat) (Q : Int) (y : Info), o.faceMap.ghostIndex[k]? = some Q → son[k]? = some y →
        fetch gf (ws.map (·.info)) Q = .ok y := by
    intro r x z hx hz
    obtain ⟨p, bs, o, hp, hbs, ho⟩ := hpx hx
    have hwr := List.getElem?_eq_getElem (l := ws) (i := r) (by have := (List.getElem?_eq_some_iff.1 hx).1; omega)
    have hm := hmaps r o ho
    obtain ⟨z1, z2, son, z3, z4, z5⟩ := h4 r (_, _) z (List.getElem?_zip_eq_some.2 ⟨hwr, hm⟩) hz
    refine ⟨p, bs, o, _, hp, hbs, ho, hwr, hw hx hp hbs hwr, z1, z2, ?_, son, z3, z4, z5⟩
    have := congrArg (fun l => l[r]?) hlens
    simpa [lensOf, ho, hp] using this.symm
  obtain ⟨E, hE⟩ := orient_exists hD hN
  -- the first side of a face a rank holds is that of the owner
  have hside : ∀ {s : Nat} {x : RankIn} {o : RankOut} {v l i j : Nat} {f : Face} {a : Slot}, ranks[s]? = some x → outs[s]? = some o →
      o.faces[v]? = some f → f.first = l → Is cl s x l i → IsSlot per G i j a →
      LocalName (outs.map (·.nFaces)) s o.faceMap.ghostIndex (number per cl G ranks ins i j) v →
      (i, j) = E (number per cl G ranks ins i j) := by
    intro s x o v l i j f a hx ho hf hl hi ha hv
    have hQ := hN.range i j a ha
    obtain ⟨⟨l', e1, hi'⟩, _⟩ := hE.face s x o _ v f hx ho hQ hv hf
    obtain ⟨s1, b, hb⟩ := hE.slot _ hQ
    have : l = l' := by omega
    subst this
    have hie := is_inj (hD.holds s x hx) hi hi'
    by_contra hne
    exact other_cell hD hN ha hb s1.symm hne hie
  -- the information of a face on its owner
  have howner : ∀ {i j : Nat} {a : Slot}, IsSlot per G i j a → (i, j) = E (number per cl G ranks ins i j) →
      ∃ (ρ : Nat) (x : RankIn) (p : Interp) (bs : List BndRow) (w : ZSt), Owns (lensOf ins) ρ (number per cl G ranks ins i j) ∧ ranks[ρ]? = some x ∧
        ins[ρ]? = some p ∧ bnds[ρ]? = some bs ∧ ws[ρ]? = some w ∧
        w.info[(number per cl G ranks ins i j - before (lensOf ins) ρ).toNat]? = some ((Z i j).getD ⟨a.type, 0⟩) ∧
        ((Z i j = none ∧ w.face2bnd[(number per cl G ranks ins i j - before (lensOf ins) ρ).toNat]? = some none) ∨
          ∃ (k : Nat) (b : BndRow), w.face2bnd[(number per cl G ranks ins i j - before (lensOf ins) ρ).toNat]? = some (some k) ∧ bs[k]? = some b ∧
            Sits per cl nl G ρ x b i j) := by
    intro i j a ha hEq
    have hQ := hN.range i j a ha
    obtain ⟨ρ, hρ⟩ := owns_exists hQ.1 hQ.2
    have hρ' := hρ
    rw [hlens] at hρ'
    obtain ⟨x, p, bs, w, hx, hp, hbs, hwr, _⟩ := hrow hρ'
    obtain ⟨_, _, o, hp1, _, ho⟩ := hpx hx
    rw [hp] at hp1; cases hp1
    refine ⟨ρ, x, p, bs, w, hρ', hx, hp, hbs, hwr, ?_⟩
    have hql : (number per cl G ranks ins i j - before (lensOf ins) ρ).toNat < p.faces.length := by
      obtain ⟨h1, h2, h3⟩ := hρ'
      have hp' := (List.getElem?_eq_some_iff.1 hp).2
      simp only [lensOf, List.getElem_map, hp'] at h3
      simp only [lensOf] at *; omega
    have h0 := hρ'.2.1
    obtain ⟨q, hqd⟩ : ∃ q, (number per cl G ranks ins i j - before (lensOf ins) ρ).toNat = q := ⟨_, rfl⟩
    rw [hqd] at hql ⊢
    have hf := List.getElem?_eq_getElem hql
    obtain ⟨l, i0, j0, a0, f1, hi0, ha0, f4, ho0, hg0, _⟩ := (hW.rank ρ x p hx hp).face q _ hf
    have hnum := (number_own hW hx hp hi0 ha0 ho0 hg0 hql).1
    have hnum' : number per cl G ranks ins i0 j0 = number per cl G ranks ins i j := by
      have := Int.toNat_of_nonneg (Int.sub_nonneg.2 h0)
      rw [hqd] at this
      rw [hnum, this, add_sub_cancel]
    have hol : q < o.faces.length := by
      have h1 := (hN.maps ρ o ho).2
      have : p.faces.length = o.nFaces := by
        have := congrArg (fun l => l[ρ]?) hlens
        simpa [lensOf, ho, hp] using this.symm
      omega
    have hfo := List.getElem?_eq_getElem hol
    have hfe := hfirst ρ q p o _ _ hp ho hf hfo
    have hs0 := hside hx ho hfo (l := l) (by rw [hfe]; exact f1) hi0 ha0 (by
      rw [hnum']; refine Or.inl ⟨hρ, ?_⟩; rw [hlens]; omega)
    rw [hnum', ← hEq] at hs0
    simp only [Prod.mk.injEq] at hs0
    obtain ⟨rfl, rfl⟩ := hs0
    have := slot_unique ha ha0
    subst this
    exact own_info hW hB hx hp hbs (hord hx hp) (hw hx hp hbs hwr) hf f1 hi0 ha ho0 hg0 (by rw [f4]; rfl)
  have hinfo : ∀ (r : Nat) (x : RankIn) (o : RankOut) (z : ZSt) (v l i j : Nat) (f : Face) (a : Slot), ranks[r]? = some x → outs[r]? = some o →
    zs[r]? = some z → o.faces[v]? = some f → f.first = l → LocalName cl r x.cellMap.ghostIndex i l → IsSlot per G i j a →
    LocalName (outs.map (·.nFaces)) r o.faceMap.ghostIndex (number per cl G ranks ins i j) v →
      z.info[v]? = some ((Z i j).getD ⟨a.type, 0⟩) ∧ ∀ bs, bnds[r]? = some bs → v < o.nFaces →
      ((Z i j = none ∧ z.face2bnd[v]? = some none) ∨ ∃ (k : Nat) (b : BndRow), z.face2bnd[v]? = some (some k) ∧ bs[k]? = some b ∧
        Sits per cl nl G r x b i j) := by
    intro r x o z v l i j f a hx ho hzr hf hl hi ha hv
    obtain ⟨p, bs, o', w, hp, hbs, ho', hwr, hzi, z1, z2, z3, son, z4, z5, z6⟩ := hz hx hzr
    rw [ho] at ho'; cases ho'
    have hFa := face_faithful hN ho
    obtain ⟨ρ, x', p', bs', w', hρ, hx', hp', hbs', hw', hy, hy2⟩ := howner ha (hside hx ho hf hl hi ha hv)
    have hsz := hFa.size
    have hsz : o.faceMap.mainSize = o.nFaces := by
      simp only [List.getElem?_map, ho, Option.map_some] at hsz
      exact (Option.some.inj hsz).symm
    have hlI := hzi.lenI
    by_cases hr : Owns (lensOf ins) r (number per cl G ranks ins i j)
    · have : ρ = r := owns_unique hρ hr
      subst this
      rw [hx] at hx'; cases hx'
      rw [hbs] at hbs'; cases hbs'
      rw [hwr] at hw'; cases hw'
      have hve : (number per cl G ranks ins i j - before (lensOf ins) ρ).toNat = v := by
        rcases hv with ⟨_, e⟩ | ⟨h, _⟩ | ⟨h, _⟩
        · rw [hlens] at e; omega
        · rw [hlens] at h; exact absurd hr h
        · rw [hlens] at h; exact absurd hr h
      rw [hve] at hy hy2
      refine ⟨?_, fun bs' hbs'' _ => ?_⟩
      · rw [z4, List.getElem?_append_left (List.getElem?_eq_some_iff.1 hy).1]; exact hy
      · rw [hbs] at hbs''; cases hbs''
        rw [z2]; exact hy2
    · rcases hv with ⟨h, _⟩ | ⟨_, k, hk, n, hn, e⟩ | ⟨_, _, e⟩
      · rw [hlens] at h; exact absurd h hr
      · have hn' : n = o.nFaces := by
          simp only [List.getElem?_map, ho, Option.map_some] at hn
          exact (Option.some.inj hn).symm
        have hkl : k < son.length := by rw [z5]; exact (List.getElem?_eq_some_iff.1 hk).1
        have hfet := z6 k _ _ hk (List.getElem?_eq_getElem hkl)
        rw [fetch_eq (rows := ws.map (·.info)) hgf hρ (by rw [List.getElem?_map, hw']; rfl) hy] at hfet
        have hve : v = w.info.length + k := by omega
        refine ⟨?_, fun _ _ hlt => by omega⟩
        rw [z4, hve, List.getElem?_append_right (by omega), show w.info.length + k - w.info.length = k by omega, List.getElem?_eq_getElem hkl,
          ← Res.ok.inj hfet]
      · have := (hN.range i j a ha).1; omega
  refine ⟨zs, hI, hN, ?_, l4', ?_, ?_, ?_, ?_, ?_, ?_⟩
  · unfold faceZones
    simp only [e1, e2, Res.ok_bind]
    rw [hgf]
    simp only [Res.ok_bind]
    rw [e3]
    simp only [Res.ok_bind]
    exact e4
  · intro r o z ho hzr
    obtain ⟨x, hx⟩ := rank_of' hN ho
    obtain ⟨p, bs, o', w, hp, hbs, ho', hwr, hzi, z1, z2, z3, son, z4, z5, z6⟩ := hz hx hzr
    rw [ho] at ho'; cases ho'
    refine ⟨?_, by rw [z2, hzi.lenF, z3]⟩
    rw [z4, List.length_append, hzi.lenI, z3, z5, (hN.maps r o ho).2]
  · intro r x o z v l i j f a hx ho hzr hf hl hi ha hv
    exact (hinfo r x o z v l i j f a hx ho hzr hf hl hi ha hv).1
  · intro r x o z bs v l i j f a hx ho hzr hbs hf hvn hl hi ha hv
    exact (hinfo r x o z v l i j f a hx ho hzr hf hl hi ha hv).2 bs hbs hvn
  · intro r x o z bs k i j b hx ho hzr hbs hb hs
    obtain ⟨p, bs', o', w, hp, hbs', ho', hwr, hzi, z1, z2, z3, son, z4, z5, z6⟩ := hz hx hzr
    rw [ho] at ho'; cases ho'
    rw [hbs] at hbs'; cases hbs'
    have hG := rank_targets hW hB hx hp hbs
    have hkl : k < w.bnd2face.length := by rw [hzi.lenB]; exact (List.getElem?_eq_some_iff.1 hb).1
    rw [z1]
    have hkv := List.getElem?_eq_getElem hkl
    rcases hzi.b2f k _ hkv with e | ⟨q, e, hT, _⟩
    · left
      rw [hkv, e]
      refine ⟨?_, rfl⟩
      cases hpz : isPeriodic b.info.zone with
      | true => rfl
      | false =>
        obtain ⟨q, h1, _⟩ := own_inverse hG hzi hb hpz
        rw [hkv, e] at h1
        have := Option.some.inj h1
        omega
    · right
      obtain ⟨l, _, hi, ho', hg⟩ := target_slot hT hD hx hb hs
      obtain ⟨_, a, _, _, _, ha, _⟩ := hs
      have hq := target_lt hG hT
      obtain ⟨n1, n2⟩ := number_own hW hx hp hi ha ho' hg hq
      refine ⟨q, by rw [hkv, e], by omega, Or.inl ⟨by rw [hlens]; exact n2, by rw [hlens]; omega⟩⟩
  · intro r x z bs k b hx hzr hbs hb hn
    obtain ⟨p, bs', o', w, hp, hbs', ho', hwr, hzi, z1, z2, z3, son, z4, z5, z6⟩ := hz hx hzr
    rw [hbs] at hbs'; cases hbs'
    rw [z1, z2]
    exact own_inverse (rank_targets hW hB hx hp hbs) hzi hb hn
  · intro r z bs hzr hbs
    have hrl := (List.getElem?_eq_some_iff.1 hzr).1
    obtain ⟨p, bs', o', w, hp, hbs', ho', hwr, hzi, z1, z2, z3, son, z4, z5, z6⟩ := hz (r := r) (List.getElem?_eq_getElem (by omega)) hzr
    rw [hbs] at hbs'; cases hbs'
    rw [z1, hzi.lenB]

/-- **C92**, the check.  If there is an element with a boundary condition on every face with one side, `AssertOnFaces`
passes on every rank: faces inside the mesh and periodic faces have two different cells, faces with a boundary condition
one, which the rank owns, and the faces of every own cell are counted once each. -/
theorem faces_asserted {per : Bool} {cl nl : List Nat} {G : List Cell} {gc : GOM} {ranks : List RankIn}
    (hD : Distributed per cl nl G gc ranks) {bnds : List (List BndRow)} {Z : Nat → Nat → Option Info} (hB : Bounded per cl nl G ranks bnds Z)
    (hC : Closed per G Z) {outs : List RankOut} {F : Nat → Nat → Int} {zs : List ZSt} (hN : Numbered per cl nl G ranks outs F)
    (hZ : Zoned per cl nl G ranks bnds Z outs F zs) {r : Nat} {x : RankIn} {o : RankOut} {z : ZSt} (hx : ranks[r]? = some x)
    (ho : outs[r]? = some o) (hz : zs[r]? = some z) : assertOnFaces x.nOwn o z.info = .ok () := by
  have hlen := (hZ.sizes r o z ho hz).1
  have hrw := hN.rows r x o hx ho
  have hH := hD.holds r x hx
  have hno : x.nOwn ≤ o.c2f.length := by rw [hrw, hH.size]; simp [RankIn.nOwn]
  obtain ⟨cont, e1, l1, h1⟩ := assertFaces_spec (nOwn := x.nOwn) (nCell := o.c2f.length) (o.faces.zip z.info) (List.replicate o.c2f.length 0)
    List.length_replicate (good_faces hD hN hB hC hZ hx ho hz)
  have hcells : ∀ (l : Nat) (row : List Int), (o.c2f.take x.nOwn)[l]? = some row → (do
      assertCell o.faces l row
      let n ← idx cont l
      Res.assert (n = row.length) : Res Unit) = .ok () := by
    intro l row hrow
    have hl : l < x.nOwn := by
      have := (List.getElem?_eq_some_iff.1 hrow).1
      rw [List.length_take] at this; omega
    rw [List.getElem?_take_of_lt hl] at hrow
    obtain ⟨r1, r2, r3⟩ := own_row hD hN hx ho hl hrow
    have hc := h1 l 0 (by rw [List.getElem?_replicate, if_pos (by omega)])
    have hcount : (o.faces.zip z.info).countP (fun p => touches l p.1) = row.length := by
      rw [← countP_row (touches l) o.faces row r1 r2 r3]
      conv => rhs; rw [← List.map_fst_zip (l₁ := o.faces) (l₂ := z.info) (by omega), List.countP_map]
      rfl
    rw [hcount, Nat.zero_add] at hc
    rw [assertCell_spec row r2, Res.ok_bind, (idx_ok_iff cont l _).2 hc, Res.ok_bind, Res.assert_true _ rfl]
  obtain ⟨us, e2, _⟩ := N2C.forRanks_all (fun l (row : List Int) => (do
      assertCell o.faces l row
      let n ← idx cont l
      Res.assert (n = row.length) : Res Unit)) (fun _ _ _ => True) (o.c2f.take x.nOwn) (fun l row h => ⟨(), hcells l row h, trivial⟩)
  rw [assertOnFaces, e1, Res.ok_bind, e2, Res.ok_bind]

/-! ### Non-vacuity -/

/-- the slot's face has no other side -/
def Alone (per : Bool) (G : List Cell) (i j : Nat) : Prop := ∀ (a : Slot), IsSlot per G i j a → ∀ (i' j' : Nat) (b : Slot), IsSlot per G i' j' b →
  SameFace per a b → (i', j') = (i, j)

open Classical in
/-- elements for every slot whose face has no other side, and, if `p`, periodic ones for all other slots -/
noncomputable def sample (p per : Bool) (G : List Cell) (i j : Nat) : Option Info :=
  if Alone per G i j then some ⟨.line2, 7⟩ else if p then some ⟨.line2, -1⟩ else none

open Classical in
/-- the elements of the sample on a rank -/
noncomputable def samplePairs (p per : Bool) (cl : List Nat) (G : List Cell) (r : Nat) (x : RankIn) : List (Nat × Nat) :=
  (List.range x.nOwn ×ˢ List.range 8).filter fun q => (sample p per G (before cl r + q.1) q.2).isSome ∧ ∃ a, IsSlot per G (before cl r + q.1) q.2 a

noncomputable def sampleRow (p per : Bool) (cl : List Nat) (G : List Cell) (r : Nat) (x : RankIn) (q : Nat × Nat) : BndRow :=
  ⟨((x.cells[q.1]?.map fun c => (slot per c q.2).nodes).getD []), (sample p per G (before cl r + q.1) q.2).getD ⟨.line2, 0⟩, q.1⟩

noncomputable def sampleBnds (p per : Bool) (cl : List Nat) (G : List Cell) (ranks : List RankIn) : List (List BndRow) :=
  ranks.zipIdx.map fun y => (samplePairs p per cl G y.2 y.1).map (sampleRow p per cl G y.2 y.1)

theorem sample_sits {per : Bool} {cl nl : List Nat} {G : List Cell} {gc : GOM} {ranks : List RankIn} (hD : Distributed per cl nl G gc ranks)
    {r : Nat} {x : RankIn} (hx : ranks[r]? = some x) {p : Bool} {l j : Nat} (hl : l < x.nOwn) {a : Slot} (ha : IsSlot per G (before cl r + l) j a) :
    Owns cl r ((before cl r + l : Nat) : Int) ∧ Sits per cl nl G r x (sampleRow p per cl G r x (l, j)) (before cl r + l) j := by
  have hH := hD.holds r x hx
  obtain ⟨hi, hoi⟩ := Sweep.is_own_add hH hl
  refine ⟨hoi, l, a, rename (nameOf x.nodeMap) a, rfl, hi, ha, localSlot_of hD hx hi ha rfl, ?_⟩
  obtain ⟨C, hC, hj, rfl⟩ := ha
  obtain ⟨c, hc⟩ : ∃ c, x.cells[l]? = some c := ⟨_, List.getElem?_eq_getElem (is_lt hH hi)⟩
  obtain ⟨_, _, e, _⟩ := localized_slot hH hc hC (hD.valid C (List.mem_of_getElem? hC)).1 hi hj
  simp only [sampleRow, hc, Option.map_some, Option.getD_some, e]
  exact List.Perm.refl _

/-- every distributed mesh has boundary elements, and enough of them -/
theorem sample_bounded {per : Bool} {cl nl : List Nat} {G : List Cell} {gc : GOM} {ranks : List RankIn} (hD : Distributed per cl nl G gc ranks)
    (p : Bool) : Bounded per cl nl G ranks (sampleBnds p per cl G ranks) (sample p per G) ∧ Closed per G (sample p per G) := by
  have hget : ∀ {r : Nat} {x : RankIn} {bs : List BndRow}, ranks[r]? = some x → (sampleBnds p per cl G ranks)[r]? = some bs →
      bs = (samplePairs p per cl G r x).map (sampleRow p per cl G r x) := by
    intro r x bs hx h
    simp only [sampleBnds, List.getElem?_map, List.getElem?_zipIdx, hx, Option.map_some, Nat.zero_add] at h
    exact (Option.some.inj h).symm
  have hpair : ∀ {r : Nat} {x : RankIn} {q : Nat × Nat}, q ∈ samplePairs p per cl G r x ↔ (q.1 < x.nOwn ∧ q.2 < 8) ∧
      (sample p per G (before cl r + q.1) q.2).isSome ∧ ∃ a, IsSlot per G (before cl r + q.1) q.2 a := by
    intro r x q
    obtain ⟨l, j⟩ := q
    simp only [samplePairs, List.mem_filter, List.mem_product, List.mem_range, decide_eq_true_eq]
  refine ⟨⟨by simp [sampleBnds], ?_, ?_, ?_, ?_, ?_⟩, ?_⟩
  · intro r x bs k b hx hbs hb
    rw [hget hx hbs, List.getElem?_map] at hb
    obtain ⟨q, hq, rfl⟩ := Option.map_eq_some_iff.1 hb
    obtain ⟨⟨h1, h2⟩, h3, a, ha⟩ := hpair.1 (List.mem_of_getElem? hq)
    obtain ⟨s1, s2⟩ := sample_sits hD hx (p := p) h1 ha
    refine ⟨_, _, s1, s2, ?_⟩
    obtain ⟨y, hy⟩ := Option.isSome_iff_exists.1 h3
    simp [sampleRow, hy]
  · intro r x bs i j a z hx hbs hoi ha hz
    have hH := hD.holds r x hx
    obtain ⟨l, hi⟩ := name_exists hH.cellMap.faithful (Or.inl hoi)
    have hl := (is_own hH hi).2 hoi
    have hil := is_inj hH hi (Sweep.is_own_add hH hl).1
    subst hil
    have hj : j < 8 := by
      obtain ⟨C, hC, hj, _⟩ := ha
      have : (numFaces C.type).toNat ≤ 6 := by
        have hk := (hD.valid C (List.mem_of_getElem? hC)).1.known
        revert hk
        generalize C.type = t
        cases t <;> decide
      omega
    have hm : (l, j) ∈ samplePairs p per cl G r x := hpair.2 ⟨⟨hl, hj⟩, by rw [hz]; rfl, a, ha⟩
    obtain ⟨k, hk⟩ := List.mem_iff_getElem?.1 hm
    exact ⟨k, sampleRow p per cl G r x (l, j), by rw [hget hx hbs, List.getElem?_map, hk]; rfl, (sample_sits hD hx hl ha).2⟩
  · intro r x bs k k' b b' i j hx hbs hb hb' hs hs'
    rw [hget hx hbs, List.getElem?_map] at hb hb'
    obtain ⟨q, hq, rfl⟩ := Option.map_eq_some_iff.1 hb
    obtain ⟨q', hq', rfl⟩ := Option.map_eq_some_iff.1 hb'
    obtain ⟨⟨h1, h2⟩, _, a, ha⟩ := hpair.1 (List.mem_of_getElem? hq)
    obtain ⟨⟨h1', h2'⟩, _, a', ha'⟩ := hpair.1 (List.mem_of_getElem? hq')
    have u := sits_unique hD hx (sample_sits hD hx (p := p) h1 ha).2 hs
    have u' := sits_unique hD hx (sample_sits hD hx (p := p) h1' ha').2 hs'
    have e : q = q' := Prod.ext (by omega) (by omega)
    subst e
    have hnd : (samplePairs p per cl G r x).Nodup := (List.nodup_range.product List.nodup_range).filter _
    have hk := (List.getElem?_eq_some_iff.1 hq).1
    exact (List.getElem?_inj hk hnd).1 (hq.trans hq'.symm)
  · intro i j z hz
    unfold sample at hz
    split at hz
    · cases hz; exact Or.inl rfl
    · split at hz
      · cases hz; exact Or.inr rfl
      · cases hz
  · intro i j i' j' a b z ha hb hab hne hz
    have h1 : ¬ Alone per G i j := fun h => hne (h a ha i' j' b hb hab).symm
    have h2 : ¬ Alone per G i' j' := fun h => hne (h b hb i j a ha (sf_symm hD ha hb hab))
    unfold sample at hz ⊢
    rw [if_neg h1] at hz
    rw [if_neg h2]
    split at hz
    · rename_i hp
      cases hz
      exact ⟨rfl, _, if_pos hp⟩
    · cases hz
  · intro i j a ha h
    have h1 : Alone per G i j := fun a' ha' i' j' b hb hab => h i' j' b hb (by rw [slot_unique ha ha']; exact hab)
    exact ⟨_, if_pos h1, rfl⟩

/-- two quadrilaterals on two ranks with elements all around and, if `p`, a periodic pair on the face between them -/
example (p per : Bool) : ∃ gc ranks outs F zs, interpolate per stable gc ranks = .ok outs ∧ Numbered per [1, 1] [4, 2] TwoQuads.mesh ranks outs F ∧
    faceZones per stable gc ranks (sampleBnds p per [1, 1] TwoQuads.mesh ranks) = .ok zs ∧ zs.length = 2 ∧
    ∀ (r : Nat) (x : RankIn) (o : RankOut) (z : ZSt), ranks[r]? = some x → outs[r]? = some o → zs[r]? = some z → assertOnFaces x.nOwn o z.info = .ok () := by
  obtain ⟨gc, ranks, hD, hr⟩ := TwoQuads.exists_ranks per
  obtain ⟨hB, hC⟩ := sample_bounded hD p
  obtain ⟨outs, F, zs, h1, hN, h3, hZ⟩ := zones_global per stable stable_sorts _ _ _ gc ranks hD _ _ hB
  exact ⟨gc, ranks, outs, F, zs, h1, hN, h3, by rw [hZ.size, hr], fun r x o z hx ho hz => faces_asserted hD hB hC hN hZ hx ho hz⟩

/-- one rank, two cells `0` and `1`, a periodic face between them with an element on either side: which of the elements have a face
depends on the order of the elements -/
theorem periodic_bnd2face_order :
    putBnds 2 ⟨[⟨⟨.line2, [0, 1], []⟩, 0, 1⟩], [[0], [0]], []⟩ [⟨[0, 1], ⟨.line2, -1⟩, 0⟩, ⟨[0, 1], ⟨.line2, -4⟩, 1⟩]
      = .ok ⟨[⟨.line2, -1⟩], [0, -1], [some 0]⟩ ∧
    putBnds 2 ⟨[⟨⟨.line2, [0, 1], []⟩, 0, 1⟩], [[0], [0]], []⟩ [⟨[0, 1], ⟨.line2, -4⟩, 1⟩, ⟨[0, 1], ⟨.line2, -1⟩, 0⟩]
      = .ok ⟨[⟨.line2, -1⟩], [0, 0], [some 1]⟩ := by
  constructor <;> simp [putBnds, bndLoop, bndStep, bndSlots, putBnd, stays, at64, idx, Res.assert, isPeriodic, isExternal]

end DNDSR.Faces
