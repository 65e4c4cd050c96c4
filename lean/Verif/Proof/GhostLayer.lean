import Verif.Proof.GhostRecover
import Verif.Props.MeshAdj
import Verif.Props.FacesGhost
import Verif.Props.Node2Cell

/-!
# The ghost layer and the local names
-/

namespace DNDSR.Ghost

open DNDSR.IMap DNDSR.MeshAdj DNDSR.N2C DNDSR.Faces

theorem owns_isCell {ps : List Piece} {r : Nat} {c : Int} (h : Owns (cellLens ps) r c) :
    ∃ p C, ps[r]? = some p ∧ p.cells[(c - before (cellLens ps) r).toNat]? = some C ∧ IsCell ps c C := by
  have h' : Owns ((ps.map (fun x : Piece => x.cells)).map List.length) r c := by rw [cellLens_eq]; exact h
  obtain ⟨own, h1, h2, h3⟩ := owns_flatten h'
  rw [List.getElem?_map] at h1
  obtain ⟨p, hp, rfl⟩ := Option.map_eq_some_iff.1 h1
  rw [cellLens_eq] at h2 h3
  refine ⟨p, p.cells[(c - before (cellLens ps) r).toNat], hp, List.getElem?_eq_getElem h2, ?_, ?_⟩
  · obtain ⟨_, a, _⟩ := h; omega
  · rw [whole, h3]; exact List.getElem?_eq_getElem h2

theorem owns_of_index {ps : List Piece} {r k : Nat} {p : Piece} (hp : ps[r]? = some p) (hk : k < p.cells.length) :
    Owns (cellLens ps) r ((before (cellLens ps) r : Int) + k) := by
  obtain ⟨h1, h2⟩ := List.getElem?_eq_some_iff.1 hp
  refine ⟨by simpa [cellLens] using h1, by omega, ?_⟩
  simp only [cellLens, List.getElem_map, h2]
  omega

theorem whole_length (ps : List Piece) : (whole ps).length = (cellLens ps).sum := by rw [whole, List.length_flatten, cellLens_eq]

/-- the cells a rank holds -/
def Kept (ps : List Piece) (r : Nat) (m : Map) (c : Int) : Prop := Owns (cellLens ps) r c ∨ c ∈ m.ghostIndex

theorem held_mem {ps : List Piece} {r : Nat} {p : Piece} (hp : ps[r]? = some p) {m : Map} (hm : Faithful (cellLens ps) r m) {son : List Cell}
    (hl : son.length = m.ghostIndex.length)
    (hs : ∀ (k : Nat) (q : Int), m.ghostIndex[k]? = some q → son[k]? = (whole ps)[q.toNat]?) (C : Cell) :
    C ∈ p.cells ++ son ↔ ∃ c, Kept ps r m c ∧ IsCell ps c C := by
  have hrange : ∀ q ∈ m.ghostIndex, Global (cellLens ps) q := hm.loc.range
  rw [List.mem_append]
  constructor
  · rintro (h | h)
    · obtain ⟨k, hk⟩ := List.mem_iff_getElem?.1 h
      exact ⟨_, Or.inl (owns_of_index hp (List.getElem?_eq_some_iff.1 hk).1), isCell_own hp hk⟩
    · obtain ⟨k, hk⟩ := List.mem_iff_getElem?.1 h
      have hk' : k < m.ghostIndex.length := by rw [← hl]; exact (List.getElem?_eq_some_iff.1 hk).1
      have hg := List.getElem?_eq_getElem hk'
      have := hs k _ hg
      rw [hk] at this
      exact ⟨_, Or.inr (List.getElem_mem hk'), (hrange _ (List.getElem_mem hk')).1, this.symm⟩
  · rintro ⟨c, h | h, hC⟩
    · obtain ⟨p', C', h1, h2, h3⟩ := owns_isCell h
      rw [hp] at h1
      cases Option.some.inj h1
      rw [isCell_unique hC h3]
      exact Or.inl (List.mem_of_getElem? h2)
    · obtain ⟨k, hk⟩ := List.mem_iff_getElem?.1 h
      have := hs k c hk
      rw [hC.2] at this
      exact Or.inr (List.mem_of_getElem? this)

theorem buildGhost_ok {per : Bool} {ps : List Piece} {adj : List Adj} (hP : PartsOk per ps) (hal : adj.length = ps.length)
    (hadj : ∀ (r : Nat) (p : Piece) (a : Adj), ps[r]? = some p → adj[r]? = some a → AdjOk per ps r p a)
    (hs : Small (nodeLens ps)) (hs' : Small (cellLens ps)) :
    ∃ held, buildGhost ps adj = .ok held ∧ held.length = ps.length ∧ ∀ (r : Nat) (x : Held), held[r]? = some x → HeldOk ps r x := by
  have hpa : ∀ (r : Nat) (p : Piece), ps[r]? = some p → ∃ a, adj[r]? = some a ∧ AdjOk per ps r p a := by
    intro r p hp
    have hr : r < adj.length := by rw [hal]; exact (List.getElem?_eq_some_iff.1 hp).1
    exact ⟨_, List.getElem?_eq_getElem hr, hadj r p _ hp (List.getElem?_eq_getElem hr)⟩
  have hap : ∀ (r : Nat) (a : Adj), adj[r]? = some a → ∃ p, ps[r]? = some p ∧ AdjOk per ps r p a := by
    intro r a ha
    have hr : r < ps.length := by rw [← hal]; exact (List.getElem?_eq_some_iff.1 ha).1
    exact ⟨_, List.getElem?_eq_getElem hr, hadj r _ a (List.getElem?_eq_getElem hr) ha⟩
  have hlens : adj.map (·.c2c.length) = cellLens ps := by
    refine List.ext_getElem? fun r => ?_
    rw [cellLens, List.getElem?_map, List.getElem?_map]
    by_cases hr : r < ps.length
    · obtain ⟨a, ha, hA⟩ := hpa r _ (List.getElem?_eq_getElem hr)
      rw [ha, List.getElem?_eq_getElem hr]
      simp only [Option.map_some, hA.rows]
    · rw [List.getElem?_eq_none (by omega), List.getElem?_eq_none (by omega)]; rfl
  have hlens2 : (adj.map (fun a : Adj => a.c2c)).map List.length = cellLens ps := by
    rw [← hlens, List.map_map]; rfl
  obtain ⟨gn, hgn⟩ := built_exists (nodeLens ps)
  obtain ⟨gc, hgc⟩ := built_exists (cellLens ps)
  have g1 : setMPIAlignBcast ((ps.map (·.nNodes)).map Int.ofNat) = .ok gn := hgn
  have g2 : setMPIAlignBcast ((adj.map (·.c2c.length)).map Int.ofNat) = .ok gc := by rw [hlens]; exact hgc
  -- the cells asked for
  have hrowmem : ∀ (r : Nat) (a : Adj), adj[r]? = some a → ∀ c, c ∈ a.c2c.flatten → Global (cellLens ps) c ∧ Touches ps r c := by
    intro r a ha c hc
    obtain ⟨p, hp, hA⟩ := hap r a ha
    obtain ⟨row, h1, h2⟩ := List.mem_flatten.1 hc
    obtain ⟨k, hk⟩ := List.mem_iff_getElem?.1 h1
    obtain ⟨_, q, h3, h4⟩ := (hA.exact_ k row hk c).1 h2
    have hk' : k < p.cells.length := by rw [← hA.rows]; exact (List.getElem?_eq_some_iff.1 hk).1
    obtain ⟨C, hC, _⟩ := id h4
    exact ⟨isCell_global hC, _, q, owns_of_index hp hk', h3, h4⟩
  have htouch : ∀ (r : Nat) (a : Adj), adj[r]? = some a → ∀ c, ¬ Owns (cellLens ps) r c → Touches ps r c → c ∈ a.c2c.flatten := by
    rintro r a ha c hno ⟨d, q, h1, h2, h3⟩
    obtain ⟨p, hp, hA⟩ := hap r a ha
    obtain ⟨p', C, e1, e2, e3⟩ := owns_isCell h1
    have e1' : p = p' := Option.some.inj (hp.symm.trans e1)
    subst e1'
    have hk : (d - before (cellLens ps) r).toNat < a.c2c.length := by rw [hA.rows]; exact (List.getElem?_eq_some_iff.1 e2).1
    refine List.mem_flatten.2 ⟨_, List.getElem_mem hk, ?_⟩
    have hd : (before (cellLens ps) r : Int) + ((d - before (cellLens ps) r).toNat : Int) = d := by
      obtain ⟨_, x, _⟩ := h1; omega
    refine (hA.exact_ _ _ (List.getElem?_eq_getElem hk) c).2 ?_
    rw [hd]
    exact ⟨fun e => hno (e ▸ h1), q, h2, h3⟩
  obtain ⟨want, e1, l1, s1⟩ := N2C.forRanks_all (fun r (a : Adj) => away gc r a.c2c.flatten)
    (fun r _ w => ∀ c, c ∈ w ↔ ¬ Owns (cellLens ps) r c ∧ Touches ps r c) adj (by
      intro r a ha
      obtain ⟨t, e, _, ht⟩ := away_spec hgc r a.c2c.flatten (fun q hq => (hrowmem r a ha q hq).1)
      refine ⟨t, e, fun c => ?_⟩
      rw [ht]
      constructor
      · rintro ⟨h1, h2⟩; exact ⟨h2, (hrowmem r a ha c h1).2⟩
      · rintro ⟨h1, h2⟩; exact ⟨htouch r a ha c h1 h2, h1⟩)
  have htg : ∀ r c, Touches ps r c → Global (cellLens ps) c := by
    rintro r c ⟨d, q, _, _, C, hC, _⟩; exact isCell_global hC
  obtain ⟨cmaps, hcm⟩ := pull_small hgc hs' want (by simp [cellLens]; omega) (by
    intro w hw q hq
    obtain ⟨r, hr⟩ := List.mem_iff_getElem?.1 hw
    have hr' : r < adj.length := by rw [← l1]; exact (List.getElem?_eq_some_iff.1 hr).1
    exact htg r q ((s1 r _ w (List.getElem?_eq_getElem hr') hr q).1 hq).2)
  have hcm' : createPull gc (adj.map (·.c2c.length)) want = .ok cmaps := by rw [hlens]; exact hcm
  obtain ⟨hcl, hcs⟩ := createPull_spec hgc want (by simp [cellLens]; omega) cmaps hcm
  have hcl' : cmaps.length = ps.length := by rw [hcl]; simp [cellLens]
  have hghost : ∀ (r : Nat) (m : Map), cmaps[r]? = some m → ∀ c, c ∈ m.ghostIndex ↔ ¬ Owns (cellLens ps) r c ∧ Touches ps r c := by
    intro r m hm c
    obtain ⟨w, hw, hlo⟩ := (hcs r m hm).req
    have hr' : r < adj.length := by rw [← l1]; exact (List.getElem?_eq_some_iff.1 hw).1
    exact (hlo.mem c).trans (s1 r _ w (List.getElem?_eq_getElem hr') hw c)
  -- the cells held
  have hbc : Built ((ps.map (fun x : Piece => x.cells)).map List.length) gc := by rw [cellLens_eq]; exact hgc
  have hba : Built ((adj.map (fun a : Adj => a.c2c)).map List.length) gc := by rw [hlens2]; exact hgc
  obtain ⟨held, e2, l2, s2⟩ := N2C.forRanks_all (fun _ (x : Piece × Adj × Map) => do
      let son ← forRanks (fun _ q => fetch gc (ps.map (·.cells)) q) 0 x.2.2.ghostIndex
      let c2c ← forRanks (fun _ q => fetch gc (adj.map (·.c2c)) q) 0 x.2.2.ghostIndex
      .ok (x.1.cells ++ son, x.2.1.c2c ++ c2c))
    (fun r x y => (∃ son : List Cell, y.1 = x.1.cells ++ son ∧ son.length = x.2.2.ghostIndex.length ∧
        ∀ (k : Nat) (q : Int), x.2.2.ghostIndex[k]? = some q → son[k]? = (whole ps)[q.toNat]?) ∧
      (∃ son : List (List Int), y.2 = x.2.1.c2c ++ son ∧ son.length = x.2.2.ghostIndex.length ∧
        ∀ (k : Nat) (q : Int), x.2.2.ghostIndex[k]? = some q → son[k]? = (adj.map (fun a : Adj => a.c2c)).flatten[q.toNat]?))
    (ps.zip (adj.zip cmaps)) (by
      intro r x hx
      obtain ⟨p, a, m⟩ := x
      obtain ⟨hp, hx2⟩ := List.getElem?_zip_eq_some.1 hx
      obtain ⟨ha, hm⟩ := List.getElem?_zip_eq_some.1 hx2
      have hF : Faithful (cellLens ps) r m := Faithful.of_pull (hcs r m hm)
      obtain ⟨son, b1, b2, b3⟩ := fetch_all hbc m.ghostIndex (by rw [cellLens_eq]; exact hF.loc.range)
      obtain ⟨son2, c1, c2, c3⟩ := fetch_all hba m.ghostIndex (by rw [hlens2]; exact hF.loc.range)
      exact ⟨(p.cells ++ son, a.c2c ++ son2), by simp only [b1, c1, Res.ok_bind], ⟨son, rfl, b2, b3⟩, ⟨son2, rfl, c2, c3⟩⟩)
  have hzl : (ps.zip (adj.zip cmaps)).length = ps.length := by rw [List.length_zip, List.length_zip]; omega
  rw [hzl] at l2
  -- per rank
  have hat : ∀ (r : Nat) (y : List Cell × List (List Int)), held[r]? = some y → ∃ p a m, ps[r]? = some p ∧ adj[r]? = some a ∧ cmaps[r]? = some m ∧
      AdjOk per ps r p a ∧ (∃ son : List Cell, y.1 = p.cells ++ son ∧ son.length = m.ghostIndex.length ∧
        ∀ (k : Nat) (q : Int), m.ghostIndex[k]? = some q → son[k]? = (whole ps)[q.toNat]?) ∧
      (∃ son : List (List Int), y.2 = a.c2c ++ son ∧ son.length = m.ghostIndex.length ∧
        ∀ (k : Nat) (q : Int), m.ghostIndex[k]? = some q → son[k]? = (adj.map (fun a : Adj => a.c2c)).flatten[q.toNat]?) := by
    intro r y hy
    have hr : r < ps.length := by rw [← l2]; exact (List.getElem?_eq_some_iff.1 hy).1
    have hp := List.getElem?_eq_getElem hr
    obtain ⟨a, ha, hA⟩ := hpa r _ hp
    have hm : cmaps[r]? = some (cmaps[r]'(by omega)) := List.getElem?_eq_getElem _
    have hz : (ps.zip (adj.zip cmaps))[r]? = some (ps[r], a, cmaps[r]'(by omega)) :=
      List.getElem?_zip_eq_some.2 ⟨hp, List.getElem?_zip_eq_some.2 ⟨ha, hm⟩⟩
    obtain ⟨x1, x2⟩ := s2 r _ y hz hy
    exact ⟨_, a, _, hp, ha, hm, hA, x1, x2⟩
  -- the nodes asked for
  have hnode : ∀ (r : Nat) (y : List Cell × List (List Int)) (m : Map), held[r]? = some y → cmaps[r]? = some m →
      ∀ q, q ∈ (y.1.map (·.nodes)).flatten ↔ ∃ c, Kept ps r m c ∧ HasNode ps c q := by
    intro r y m hy hm q
    obtain ⟨p, a, m', hp, ha, hm', hA, ⟨son, x1, x2, x3⟩, -⟩ := hat r y hy
    have : m = m' := Option.some.inj (hm.symm.trans hm')
    subst this
    have hF : Faithful (cellLens ps) r m := Faithful.of_pull (hcs r m hm)
    rw [x1]
    simp only [List.mem_flatten, List.mem_map]
    constructor
    · rintro ⟨l, ⟨C, hC, rfl⟩, hq⟩
      obtain ⟨c, h1, h2⟩ := (held_mem hp hF x2 x3 C).1 hC
      exact ⟨c, h1, C, h2, hq⟩
    · rintro ⟨c, h1, C, h2, hq⟩
      exact ⟨_, ⟨C, (held_mem hp hF x2 x3 C).2 ⟨c, h1, h2⟩, rfl⟩, hq⟩
  have hnodeg : ∀ c q, HasNode ps c q → Global (nodeLens ps) q := by
    rintro c q ⟨C, hC, hq⟩
    obtain ⟨p, hp, hCp⟩ := isCell_mem hC
    exact (hP.cells p hp C hCp).2 q hq
  obtain ⟨wantN, e3, l3, s3⟩ := N2C.forRanks_all (fun r (x : List Cell × List (List Int)) => away gn r (x.1.map (·.nodes)).flatten)
    (fun r x w => ∀ q, q ∈ w ↔ q ∈ (x.1.map (·.nodes)).flatten ∧ ¬ Owns (nodeLens ps) r q) held (by
      intro r y hy
      obtain ⟨t, e, _, ht⟩ := away_spec hgn r (y.1.map (·.nodes)).flatten (by
        intro q hq
        obtain ⟨p, a, m, hp, ha, hm, hA, -⟩ := hat r y hy
        obtain ⟨c, _, h2⟩ := (hnode r y m hy hm q).1 hq
        exact hnodeg c q h2)
      exact ⟨t, e, ht⟩)
  obtain ⟨nmaps, hnm⟩ := pull_small hgn hs wantN (by simp [nodeLens]; omega) (by
    intro w hw q hq
    obtain ⟨r, hr⟩ := List.mem_iff_getElem?.1 hw
    have hr' : r < held.length := by rw [← l3]; exact (List.getElem?_eq_some_iff.1 hr).1
    have hy := List.getElem?_eq_getElem hr'
    obtain ⟨p, a, m, hp, ha, hm, hA, -⟩ := hat r _ hy
    obtain ⟨c, _, h2⟩ := (hnode r _ m hy hm q).1 ((s3 r _ w hy hr q).1 hq).1
    exact hnodeg c q h2)
  have hnm' : createPull gn (ps.map (·.nNodes)) wantN = .ok nmaps := hnm
  obtain ⟨hnl, hns⟩ := createPull_spec hgn wantN (by simp [nodeLens]; omega) nmaps hnm
  have hnl' : nmaps.length = ps.length := by rw [hnl]; simp [nodeLens]
  refine ⟨(held.zip (cmaps.zip nmaps)).map (fun x => ⟨x.1.1, x.1.2, x.2.1, x.2.2⟩), ?_, ?_, ?_⟩
  · simp only [buildGhost, g2, Res.ok_bind, e1, hcm', e2, g1, e3, hnm']
  · rw [List.length_map, List.length_zip, List.length_zip]; omega
  · intro r x hx
    rw [List.getElem?_map] at hx
    obtain ⟨⟨y, m, n⟩, hz, rfl⟩ := Option.map_eq_some_iff.1 hx
    obtain ⟨hy, hz2⟩ := List.getElem?_zip_eq_some.1 hz
    obtain ⟨hm, hn⟩ := List.getElem?_zip_eq_some.1 hz2
    simp only at hy hm hn
    obtain ⟨p, a, m', hp, ha, hm', hA, ⟨son, x1, x2, x3⟩, ⟨son2, y1, y2, y3⟩⟩ := hat r y hy
    have : m = m' := Option.some.inj (hm.symm.trans hm')
    subst this
    have hF : Faithful (cellLens ps) r m := Faithful.of_pull (hcs r m hm)
    have hpl : p.cells.length = m.mainSize := by
      have := hF.size
      rw [cellLens, List.getElem?_map, hp] at this
      simpa using this
    refine ⟨⟨.pull gc want cmaps hgc (by simp [cellLens]; omega) hcm hm, .pull gn wantN nmaps hgn (by simp [nodeLens]; omega) hnm hn,
      hghost r m hm, ?_, ?_, ?_, ?_, ?_⟩, ?_⟩
    · intro q
      obtain ⟨w, hw, hlo⟩ := (hns r n hn).req
      have h1 := (hlo.mem q).trans (s3 r y w hy hw q)
      refine h1.trans ?_
      rw [hnode r y m hy hm q]
      constructor
      · rintro ⟨a, b⟩; exact ⟨b, a⟩
      · rintro ⟨b, a⟩; exact ⟨a, b⟩
    · simp only [x1, List.length_append]; omega
    · intro l i c C hc hC hl
      simp only [x1] at hc
      have := held_row (rows := ps.map (fun x : Piece => x.cells)) (own := p.cells) (son := son) (m := m) (r := r)
        (by rw [cellLens_eq]; exact hF) (by rw [List.getElem?_map, hp]; rfl) x2 x3 hC.1 (v := (l : Int)) (by omega) (by rw [cellLens_eq]; exact hl)
      rw [show ((l : Nat) : Int).toNat = l by omega, hc] at this
      exact Option.some.inj (this.trans hC.2)
    · simp only [x1, y1, List.length_append, hA.rows]; omega
    · intro l i row hrow hi hl
      simp only [y1] at hrow
      have := held_row (rows := adj.map (fun a : Adj => a.c2c)) (own := a.c2c) (son := son2) (m := m) (r := r)
        (by rw [hlens2]; exact hF) (by rw [List.getElem?_map, ha]; rfl) y2 y3 hi (v := (l : Int)) (by omega) (by rw [hlens2]; exact hl)
      rw [show ((l : Nat) : Int).toNat = l by omega, hrow] at this
      have hlt := (List.getElem?_eq_some_iff.1 this.symm).1
      rw [List.length_flatten] at hlt
      obtain ⟨s, hs⟩ := owns_exists hi (lens := (adj.map (fun a : Adj => a.c2c)).map List.length) (by omega)
      obtain ⟨own, o1, o2, o3⟩ := owns_flatten hs
      rw [List.getElem?_map] at o1
      obtain ⟨a', ha', rfl⟩ := Option.map_eq_some_iff.1 o1
      obtain ⟨p', hp', hA'⟩ := hap s a' ha'
      rw [← this] at o3
      rw [hlens2] at o3 hs
      refine ⟨hA'.once row (List.mem_of_getElem? o3.symm), fun c => ?_⟩
      have := hA'.exact_ _ row o3.symm c
      have he : (before (cellLens ps) s : Int) + ((i - before (cellLens ps) s).toNat : Int) = i := by
        obtain ⟨_, z, _⟩ := hs; omega
      rw [he] at this
      exact this
    · intro row hrow
      simp only [y1, List.mem_append] at hrow
      rcases hrow with hrow | hrow
      · exact hA.sorted row hrow
      · obtain ⟨k, hk⟩ := List.mem_iff_getElem?.1 hrow
        have hk' : k < m.ghostIndex.length := by rw [← y2]; exact (List.getElem?_eq_some_iff.1 hk).1
        rw [y3 k _ (List.getElem?_eq_getElem hk')] at hk
        obtain ⟨rows, h1, h2⟩ := List.mem_flatten.1 (List.mem_of_getElem? hk)
        obtain ⟨a', ha', rfl⟩ := List.mem_map.1 h1
        obtain ⟨s, hs⟩ := List.mem_iff_getElem?.1 ha'
        obtain ⟨p', _, hA'⟩ := hap s a' hs
        exact hA'.sorted row h2

end DNDSR.Ghost
