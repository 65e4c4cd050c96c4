import Verif.Proof.VtkOut

namespace DNDSR.VtkOut

open DNDSR.IMap DNDSR.Elem DNDSR.Bits DNDSR.Faces DNDSR.MeshAdj

variable {periodic : Bool} {gn : GOM} {cl nl : List Nat} {G : List Cell} {X : Nat → Per.V3} {ranks : List Rk}

theorem OnMesh.mapOk (W : OnMesh periodic gn cl nl G X ranks) : ∃ reqs : List (List Int), ∀ (r : Nat) (s : Rk), ranks[r]? = some s →
    MapOk nl reqs (ranks.map (fun s => s.map)) r s.map := by
  obtain ⟨reqs, h1, h2⟩ := W.maps
  refine ⟨reqs, fun r s hs => (createPull_spec W.built reqs h1 _ h2).2 r s.map ?_⟩
  rw [List.getElem?_map, hs]; rfl

theorem OnMesh.faithful (W : OnMesh periodic gn cl nl G X ranks) {r : Nat} {s : Rk} (hs : ranks[r]? = some s) : Faithful nl r s.map := by
  obtain ⟨reqs, h⟩ := W.mapOk
  exact .of_pull (h r s hs)

/-- a local node name that is not negative -/
theorem localName_lt {lens : List Nat} {r n : Nat} (hn : lens[r]? = some n) {gh : List Int} {q v : Int} (hq : Global lens q)
    (h : LocalName lens r gh q v) (h0 : 0 ≤ v) : v < n + gh.length := by
  obtain ⟨h1, h2⟩ := List.getElem?_eq_some_iff.1 hn
  rcases h with ⟨⟨_, a, b⟩, rfl⟩ | ⟨_, k, hk, n', hn', rfl⟩ | ⟨_, _, rfl⟩
  · rw [h2] at b; omega
  · rw [hn] at hn'; cases hn'
    have := (List.getElem?_eq_some_iff.1 hk).1
    omega
  · have := hq.1; omega

theorem OnMesh.row (W : OnMesh true gn cl nl G X ranks) {r : Nat} {s : Rk} (hs : ranks[r]? = some s) {c : Cell} (hc : c ∈ s.cells) :
    c.pbi.length = c.nodes.length ∧ ∀ v ∈ c.nodes, 0 ≤ v ∧ v < (s.coords.length + s.map.ghostIndex.length : Nat) := by
  obtain ⟨i, hi⟩ := List.mem_iff_getElem?.1 hc
  obtain ⟨C, hC, h1, h2, h3, h4⟩ := (W.cells r s hs).2 i c hi
  obtain ⟨g1, g2, g3, g4⟩ := W.good C (List.mem_of_getElem? hC)
  refine ⟨by rw [h2, h3]; exact (g4 rfl).1, fun v hv => ?_⟩
  obtain ⟨j, hj⟩ := List.mem_iff_getElem?.1 hv
  have hjl : j < C.nodes.length := by rw [← h3]; exact (List.getElem?_eq_some_iff.1 hj).1
  obtain ⟨h5, h6⟩ := h4 j _ v (List.getElem?_eq_getElem hjl) hj
  refine ⟨h5, ?_⟩
  have := localName_lt (W.coords r s hs).1 (g3 _ (List.getElem_mem hjl)) h6 h5
  omega

/-- one rank before the exchange -/
theorem needLocal_spec (W : OnMesh true gn cl nl G X ranks) {r : Nat} {s : Rk} (hs : ranks[r]? = some s) :
    ∃ a, needLocal s = .ok a ∧ a.length = s.coords.length + s.map.ghostIndex.length ∧
      ∀ j b, j < a.length → (bitAt a j b = true ↔ b = 0 ∨
        ∃ c ∈ s.cells, ∃ e ∈ c.nodes.zip c.pbi, e.1 = (j : Int) ∧ e.2.toNat = b) := by
  obtain ⟨a, h1, h2, h3⟩ := flagCells_spec s.cells (List.replicate (s.coords.length + s.map.ghostIndex.length) 1)
    (fun c hc => by rw [List.length_replicate]; exact W.row hs hc)
  rw [List.length_replicate] at h2
  refine ⟨a, h1, h2, fun j b hj => ?_⟩
  rw [h3]
  refine or_congr_left ?_
  rw [bitAt, List.getElem?_replicate, if_pos (by omega), Option.getD_some]
  rw [show (1 : Nat) = 2 ^ 0 from rfl, Nat.testBit_two_pow]
  simp [eq_comm]

theorem LocalOk.sum_sizes {lens : List Nat} {req : List Int} {p : PullLocal} (h : LocalOk lens req p) :
    p.ghostSizes.sum = p.ghostIndex.length := by
  have h1 : p.ghostStart[lens.length]? = some p.ghostIndex.length := h.start_last
  rw [h.st, plainStarts_get _ _ (by rw [h.sizes_length]), ← h.sizes_length, List.take_length] at h1
  exact Option.some.inj h1

/-- the exchange: what rank `r` receives belongs, entry by entry, to the nodes it was asked for -/
theorem past_spec (W : OnMesh true gn cl nl G X ranks) (sons : List (List Nat)) (hl : sons.length = ranks.length)
    (hs : ∀ (r : Nat) (s : Rk) (f : List Nat), ranks[r]? = some s → sons[r]? = some f → f.length = s.map.ghostIndex.length) :
    ∃ gs pmaps past, setMPIAlignBcast (sons.map (fun f => (f.length : Int))) = .ok gs ∧
      createPush gs (sons.map List.length) ((ranks.zip sons).map (fun p =>
        ((List.range p.2.length).map (fun i : Nat => (i : Int)), p.1.map.ghostStart))) = .ok pmaps ∧
      forRanks (fun _ (pm : Map) => pull gs sons pm.ghostIndex) 0 pmaps = .ok past ∧ past.length = ranks.length ∧
      ∀ (r : Nat) (s : Rk), ranks[r]? = some s → ∃ Z : List (Int × Nat),
        past[r]? = some (Z.map (fun z => z.2)) ∧ s.map.pushingIndexGlobal = Z.map (fun z => z.1) ∧
        ∀ z, z ∈ Z ↔ Owns nl r z.1 ∧ ∃ (t : Nat) (st : Rk) (f : List Nat), ranks[t]? = some st ∧ sons[t]? = some f ∧
          z ∈ st.map.ghostIndex.zip f := by
  obtain ⟨reqs, hM⟩ := W.mapOk
  have hloc : ∀ (r : Nat) (s : Rk), ranks[r]? = some s → ∃ q, LocalOk nl q s.map.loc := by
    intro r s h
    obtain ⟨q, _, h2⟩ := (hM r s h).req
    exact ⟨q, h2⟩
  have hrl := W.ranks_len
  obtain ⟨gs, g1, g2⟩ := built_of (sons.map List.length)
  have g1' : setMPIAlignBcast (sons.map (fun f => (f.length : Int))) = .ok gs := by
    rw [← g1, List.map_map]; rfl
  generalize hpush : (ranks.zip sons).map (fun p =>
        ((List.range p.2.length).map (fun i : Nat => (i : Int)), p.1.map.ghostStart)) = push
  have hget : ∀ (r : Nat) (s : Rk) (f : List Nat), ranks[r]? = some s → sons[r]? = some f →
      push[r]? = some ((List.range f.length).map (fun i : Nat => (i : Int)), s.map.ghostStart) := by
    intro r s f h1 h2
    rw [← hpush, List.getElem?_map, show (ranks.zip sons)[r]? = some (s, f) from List.getElem?_zip_eq_some.2 ⟨h1, h2⟩]; rfl
  have hpl : push.length = (sons.map List.length).length := by rw [← hpush]; simp [hl]
  have hback : ∀ (r : Nat) (p : List Int × List Nat), push[r]? = some p → ∃ s f, ranks[r]? = some s ∧ sons[r]? = some f ∧
      p = ((List.range f.length).map (fun i : Nat => (i : Int)), s.map.ghostStart) := by
    intro r p hp
    have hr : r < sons.length := by
      have := (List.getElem?_eq_some_iff.1 hp).1
      rw [hpl, List.length_map] at this; exact this
    have h1 := hget r _ _ (List.getElem?_eq_getElem (show r < ranks.length by omega)) (List.getElem?_eq_getElem hr)
    rw [hp] at h1
    exact ⟨_, _, List.getElem?_eq_getElem (by omega), List.getElem?_eq_getElem hr, Option.some.inj h1⟩
  have hvalid : Tran.PushValid (sons.map List.length) push := by
    intro r p hp l hlm
    obtain ⟨s, f, h1, h2, rfl⟩ := hback r p hp
    obtain ⟨i, hi, rfl⟩ := List.mem_map.1 hlm
    exact ⟨by omega, f.length, by rw [List.getElem?_map, h2]; rfl, by have := List.mem_range.1 hi; omega⟩
  obtain ⟨pmaps, hp⟩ := Tran.createPush_total g2 push hpl hvalid (by
    intro p hp
    obtain ⟨r, hr⟩ := List.mem_iff_getElem?.1 hp
    obtain ⟨s, f, h1, h2, rfl⟩ := hback r p hr
    obtain ⟨q, hq⟩ := hloc r s h1
    refine ⟨s.map.ghostSizes, ?_, hq.st, ?_⟩
    · have h3 : s.map.ghostSizes.length = nl.length := hq.sizes_length
      rw [h3, List.length_map]; omega
    · simp only [List.length_map, List.length_range]
      have h3 : s.map.ghostSizes.sum = s.map.ghostIndex.length := LocalOk.sum_sizes hq
      rw [hs r s f h1 h2, h3])
  obtain ⟨p1, p2⟩ := createPush_spec g2 push hpl (by
    intro p hp
    obtain ⟨r, hr⟩ := List.mem_iff_getElem?.1 hp
    obtain ⟨s, f, h1, h2, rfl⟩ := hback r p hr
    obtain ⟨q, hq⟩ := hloc r s h1
    have h3 : s.map.ghostStart = plainStarts s.map.ghostSizes := hq.st
    show s.map.ghostStart[0]? = some 0
    rw [h3, plainStarts_get _ _ (by omega)]; rfl) pmaps hp
  rw [List.length_map] at p1
  -- the pulled lists
  have hin : ∀ (r : Nat) (pm : Map), pmaps[r]? = some pm → (pm.ghostIndex.map (fun q => sons.flatten[q.toNat]?.getD 0)) =
      ((ranks.zip sons).map (fun p => segment p.2 p.1.map.ghostStart r)).flatten ∧
      ∀ q ∈ pm.ghostIndex, 0 ≤ q ∧ q < ((sons.map List.length).sum : Nat) := by
    intro r pm hpm
    have hrl' : r < sons.length := by have := (List.getElem?_eq_some_iff.1 hpm).1; omega
    obtain ⟨pr, hpr⟩ : ∃ pr, push[r]? = some pr := ⟨_, List.getElem?_eq_getElem (by rw [hpl, List.length_map]; exact hrl')⟩
    obtain ⟨_, _, _, _, _, _, _, _, _, hgi⟩ := p2 r pm pr hpm hpr
    constructor
    · rw [hgi, List.map_flatten]
      congr 1
      apply List.ext_getElem?
      intro t
      by_cases ht : t < sons.length
      · obtain ⟨pt, hpt⟩ : ∃ pt, pmaps[t]? = some pt := ⟨_, List.getElem?_eq_getElem (by omega)⟩
        have e1 : ranks[t]? = some ranks[t] := List.getElem?_eq_getElem (by omega)
        have e2 : sons[t]? = some sons[t] := List.getElem?_eq_getElem ht
        obtain ⟨_, _, k3, _, k5, _⟩ := p2 t pt _ hpt (hget t _ _ e1 e2)
        rw [List.map_map, List.getElem?_map, hpt, List.getElem?_map, show (ranks.zip sons)[t]? = some (ranks[t], sons[t]) from List.getElem?_zip_eq_some.2 ⟨e1, e2⟩]
        simp only [Option.map_some, Function.comp_apply]
        rw [← segment_map, k3, k5]
        congr 2
        rw [List.map_map, List.map_map]
        apply List.ext_getElem?
        intro i
        by_cases hi : i < sons[t].length
        · rw [List.getElem?_map, List.getElem?_range hi]
          have := flatten_at sons t i _ _ e2 (List.getElem?_eq_getElem hi)
          simp only [Option.map_some, Function.comp_apply]
          rw [show ((before (sons.map List.length) t : Int) + (i : Int)).toNat = before (sons.map List.length) t + i by omega, this,
            List.getElem?_eq_getElem hi]; rfl
        · rw [List.getElem?_eq_none (by simp; omega), List.getElem?_eq_none (by omega)]
      · rw [List.getElem?_eq_none (by simp; omega), List.getElem?_eq_none (by simp; omega)]
    · intro q hq
      rw [hgi] at hq
      obtain ⟨seg, hseg, hq⟩ := List.mem_flatten.1 hq
      obtain ⟨pt, hpt, rfl⟩ := List.mem_map.1 hseg
      obtain ⟨t, hpt⟩ := List.mem_iff_getElem?.1 hpt
      have ht : t < sons.length := by have := (List.getElem?_eq_some_iff.1 hpt).1; omega
      have e1 : ranks[t]? = some ranks[t] := List.getElem?_eq_getElem (by omega)
      have e2 : sons[t]? = some sons[t] := List.getElem?_eq_getElem ht
      obtain ⟨_, _, k3, _, k5, _⟩ := p2 t pt _ hpt (hget t _ _ e1 e2)
      have hq' : q ∈ pt.pushingIndexGlobal := by
        simp only [segment] at hq
        split at hq
        · exact List.mem_of_mem_drop (List.mem_of_mem_take hq)
        · simp at hq
      rw [k5] at hq'
      obtain ⟨l, hl', rfl⟩ := List.mem_map.1 hq'
      obtain ⟨i, hi, rfl⟩ := List.mem_map.1 hl'
      have hi := List.mem_range.1 hi
      have h1 := before_le_total (sons.map List.length) (t + 1)
      rw [before_succ _ t (by simpa using ht), List.getElem_map] at h1
      omega
  have hpast := forRanks_ok (fun _ (pm : Map) => pull gs sons pm.ghostIndex) pmaps 0
    (pmaps.map (fun pm => pm.ghostIndex.map (fun q => sons.flatten[q.toNat]?.getD 0)))
  refine ⟨gs, pmaps, _, g1', hp, hpast.2 ⟨by simp, fun i pm hpm => ⟨_, by rw [List.getElem?_map, hpm]; rfl, ?_⟩⟩, by simp; omega, ?_⟩
  · exact pull_spec 0 sons g2 _ (hin i pm hpm).2
  · intro r s hsr
    have hrr : r < ranks.length := (List.getElem?_eq_some_iff.1 hsr).1
    obtain ⟨pm, hpm⟩ : ∃ pm, pmaps[r]? = some pm := ⟨_, List.getElem?_eq_getElem (by omega)⟩
    have hseg : ∀ p ∈ ranks.zip sons, p.1.map.ghostIndex.length = p.2.length := by
      intro p hp
      obtain ⟨t, ht⟩ := List.mem_iff_getElem?.1 hp
      obtain ⟨h1, h2⟩ := List.getElem?_zip_eq_some.1 ht
      exact (hs t _ _ h1 h2).symm
    refine ⟨((ranks.zip sons).map (fun p => segment (p.1.map.ghostIndex.zip p.2) p.1.map.ghostStart r)).flatten, ?_, ?_, ?_⟩
    · rw [List.getElem?_map, hpm, Option.map_some, (hin r pm hpm).1, List.map_flatten, List.map_map]
      congr 2
      apply List.map_congr_left
      intro p hp
      rw [Function.comp_apply, ← segment_map]
      congr 1
      exact (List.map_snd_zip (by rw [hseg p hp])).symm
    · rw [(hM r s hsr).pushGlobal, List.map_flatten, List.map_map, List.map_map]
      congr 1
      rw [show ranks.map ((fun ms : Map => segment ms.ghostIndex ms.ghostStart r) ∘ fun s => s.map) =
        ((ranks.zip sons).map (fun p => p.1)).map ((fun ms : Map => segment ms.ghostIndex ms.ghostStart r) ∘ fun s => s.map) by
        rw [List.map_fst_zip (by omega)], List.map_map]
      apply List.map_congr_left
      intro p hp
      simp only [Function.comp_apply]
      rw [← segment_map]
      congr 1
      exact (List.map_fst_zip (by rw [hseg p hp])).symm
    · intro z
      rw [List.mem_flatten]
      constructor
      · rintro ⟨seg, hsg, hz⟩
        obtain ⟨p, hp, rfl⟩ := List.mem_map.1 hsg
        obtain ⟨t, ht⟩ := List.mem_iff_getElem?.1 hp
        obtain ⟨h1, h2⟩ := List.getElem?_zip_eq_some.1 ht
        obtain ⟨q, hq⟩ := hloc t _ h1
        have := (mem_segment hq (p.1.map.ghostIndex.zip p.2) (List.map_fst_zip (by rw [hseg p hp]) : _) r (by omega) z).1 hz
        exact ⟨this.2, t, p.1, p.2, h1, h2, this.1⟩
      · rintro ⟨ho, t, st, f, h1, h2, hz⟩
        have hp : (st, f) ∈ ranks.zip sons := List.mem_of_getElem? (List.getElem?_zip_eq_some.2 ⟨h1, h2⟩)
        obtain ⟨q, hq⟩ := hloc t _ h1
        refine ⟨_, List.mem_map.2 ⟨_, hp, rfl⟩, ?_⟩
        exact (mem_segment hq (st.map.ghostIndex.zip f) (List.map_fst_zip (by rw [hseg _ hp]) : _) r (by omega) z).2 ⟨hz, ho⟩

end DNDSR.VtkOut
