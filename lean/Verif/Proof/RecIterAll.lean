import Verif.Proof.RecIterRank
import Verif.Props.Sweeps

/-! Helper lemmas for `Verif.Props.RecIter`: all ranks. -/

namespace DNDSR.RecIt

open DNDSR.Elem DNDSR.IMap DNDSR.MeshAdj DNDSR.Faces
open DNDSR.Flux (nSides at64_ok firstSide isSlot_of lt_of_isSlot nSides_eq)
open DNDSR.Sweep (Mates loc loc_eq mate_is mate_ne row_of own_index own_of_lt nOwn_le is_own_add own_lt mate_place order order_nodup mem_order split_order Seen mate_lt owner)
open Matrix

variable {N V : Nat} {K : Type} [Field K]
variable {cl nl : List Nat} {gc : GOM} {ranks : List RankIn} {outs : List RankOut} {rs rs' : List (Rk N V K)} {P : Prob N V K}

theorem own_pos {r i : Nat} (h : Owns cl r i) : before cl r + ((i : Int) - before cl r).toNat = i := by
  obtain ⟨_, h, _⟩ := h
  omega

theorem rank_get (h : OnMesh cl nl gc ranks outs rs P) {r : Nat} {s : Rk N V K} (hs : rs[r]? = some s) : ∃ x, ranks[r]? = some x :=
  ⟨_, List.getElem?_eq_getElem (by rw [← h.size]; exact (List.getElem?_eq_some_iff.1 hs).1)⟩

/-- an operation that changes vectors only -/
theorem each_rank (h : OnMesh cl nl gc ranks outs rs P) (step : Rk N V K → Res (Rk N V K)) (good : Nat → RankIn → Rk N V K → Rk N V K → Prop)
    (hstep : ∀ r x s, ranks[r]? = some x → rs[r]? = some s → ∃ s', step s = .ok s' ∧ s'.sys = s.sys ∧ s'.u = s.u ∧
      (s'.x.length = x.cells.length ∧ s'.y.length = x.cells.length ∧ s'.d.length = x.cells.length) ∧ good r x s s') :
    ∃ rs', forRanks (fun _ s => step s) 0 rs = .ok rs' ∧ OnMesh cl nl gc ranks outs rs' P ∧
      ∀ (r : Nat) s', rs'[r]? = some s' → ∃ x s, ranks[r]? = some x ∧ rs[r]? = some s ∧ good r x s s' := by
  obtain ⟨rs', e1, l1, h1⟩ := N2C.forRanks_all (fun _ s => step s)
    (fun r s s' => ∀ x, ranks[r]? = some x → s'.sys = s.sys ∧ s'.u = s.u ∧
      (s'.x.length = x.cells.length ∧ s'.y.length = x.cells.length ∧ s'.d.length = x.cells.length) ∧ good r x s s') rs (by
    intro r s hs
    obtain ⟨x, hx⟩ := rank_get h hs
    obtain ⟨s', h1, h2⟩ := hstep r x s hx hs
    refine ⟨s', h1, fun x' hx' => ?_⟩
    rw [hx] at hx'; cases hx'
    exact h2)
  have hback : ∀ {r : Nat} {s' : Rk N V K}, rs'[r]? = some s' → ∃ x s, ranks[r]? = some x ∧ rs[r]? = some s ∧ s'.sys = s.sys ∧ s'.u = s.u ∧
      (s'.x.length = x.cells.length ∧ s'.y.length = x.cells.length ∧ s'.d.length = x.cells.length) ∧ good r x s s' := by
    intro r s' hs'
    have hr : r < rs.length := by rw [← l1]; exact (List.getElem?_eq_some_iff.1 hs').1
    have hs := List.getElem?_eq_getElem hr
    obtain ⟨x, hx⟩ := rank_get h hs
    exact ⟨x, _, hx, hs, h1 r _ s' hs hs' x hx⟩
  refine ⟨rs', e1, ⟨h.dist, h.num, h.orient, h.mates, h.given, by rw [l1, h.size], ?_, ?_, ?_, ?_, ?_, ?_⟩, ?_⟩
  · intro r x s' hx hs'
    obtain ⟨x', s, hx', hs, e, _⟩ := hback hs'
    rw [e]; exact h.own r x s hx hs
  · intro r o s' ho hs'
    obtain ⟨x', s, hx', hs, e, _⟩ := hback hs'
    rw [e]; exact h.faces r o s ho hs
  · intro r o s' q v ho hs'
    obtain ⟨x', s, hx', hs, e, _⟩ := hback hs'
    rw [e]; exact h.byFace r o s q v ho hs
  · intro r i s' ho hs'
    obtain ⟨x', s, hx', hs, e, _⟩ := hback hs'
    rw [e]; exact h.byCell r i s ho hs
  · intro r x s' i l hx hs'
    obtain ⟨x', s, hx', hs, _, e, _⟩ := hback hs'
    rw [e]; exact h.means r x s i l hx hs
  · intro r x s' hx hs'
    obtain ⟨x', s, hx', hs, _, _, e, _⟩ := hback hs'
    rw [hx] at hx'; cases hx'
    exact e
  · intro r s' hs'
    obtain ⟨x', s, hx', hs, _, _, _, e⟩ := hback hs'
    exact ⟨x', s, hx', hs, e⟩

/-- whatever a vector holds, it is a function of the cells -/
theorem own_exists (h : OnMesh cl nl gc ranks outs rs P) (vec : Rk N V K → List (Matrix (Fin N) (Fin V) K))
    (hlen : ∀ (r : Nat) (x : RankIn) (s : Rk N V K), ranks[r]? = some x → rs[r]? = some s → (vec s).length = x.cells.length) :
    ∃ X : Nat → Matrix (Fin N) (Fin V) K, HasOwn cl rs vec X := by
  have hc : ∀ i : Nat, ∃ v : Matrix (Fin N) (Fin V) K, ∀ (r : Nat) (s : Rk N V K), rs[r]? = some s → Owns cl r i → (vec s)[((i : Int) - before cl r).toNat]? = some v := by
    intro i
    by_cases hr : ∃ r, Owns cl r i
    · obtain ⟨r, hr⟩ := hr
      have hr1 : r < rs.length := by rw [h.size, h.dist.nranks]; exact hr.1
      have hs := List.getElem?_eq_getElem hr1
      obtain ⟨x, hx⟩ := rank_get h hs
      have hH := h.dist.holds r _ hx
      have hlt : ((i : Int) - before cl r).toNat < (vec rs[r]).length := by
        rw [hlen r _ _ hx hs]
        have := (own_index hH hr).2
        have := nOwn_le hH
        omega
      refine ⟨(vec rs[r])[((i : Int) - before cl r).toNat], fun r' s hs' hr' => ?_⟩
      have := owns_unique hr' hr
      subst this
      rw [hs] at hs'; cases hs'
      exact List.getElem?_eq_getElem hlt
    · exact ⟨0, fun r s _ hr' => absurd ⟨r, hr'⟩ hr⟩
  choose X hX using hc
  exact ⟨X, fun r s i hs ho => hX i r s hs ho⟩

theorem has_own (h : OnMesh cl nl gc ranks outs rs P) {vec : Rk N V K → List (Matrix (Fin N) (Fin V) K)} {X : Nat → Matrix (Fin N) (Fin V) K}
    (hX : Has cl ranks rs vec X) : HasOwn cl rs vec X := by
  intro r s i hs ho
  obtain ⟨x, hx⟩ := rank_get h hs
  exact hX r x s i _ hx hs (own_index (h.dist.holds r x hx) ho).1

theorem has_getD (h : OnMesh cl nl gc ranks outs rs P) {vec : Rk N V K → List (Matrix (Fin N) (Fin V) K)} {X : Nat → Matrix (Fin N) (Fin V) K}
    (hX : Has cl ranks rs vec X) {r : Nat} {x : RankIn} {s : Rk N V K} (hx : ranks[r]? = some x) (hs : rs[r]? = some s) {l : Nat} (hl : l < x.nOwn) :
    (vec s).getD l 0 = X (before cl r + l) ∧ ∀ j < nSides P.G (before cl r + l), ∀ i', P.mate (before cl r + l) j = some i' → (vec s).getD (loc x i') 0 = X i' := by
  have hH := h.dist.holds r x hx
  refine ⟨?_, fun j hj i' hm => ?_⟩
  · rw [List.getD_eq_getElem?_getD, hX r x s _ _ hx hs (is_own_add hH hl).1]; rfl
  · rw [List.getD_eq_getElem?_getD, hX r x s _ _ hx hs (mate_place h.dist h.num h.mates hx hl hj hm).1]; rfl

theorem own_getD (h : OnMesh cl nl gc ranks outs rs P) {vec : Rk N V K → List (Matrix (Fin N) (Fin V) K)} {X : Nat → Matrix (Fin N) (Fin V) K}
    (hX : HasOwn cl rs vec X) {r : Nat} {x : RankIn} {s : Rk N V K} (hx : ranks[r]? = some x) (hs : rs[r]? = some s) {l : Nat} (hl : l < x.nOwn) :
    (vec s).getD l 0 = X (before cl r + l) := by
  have hH := h.dist.holds r x hx
  obtain ⟨hi, hoi⟩ := is_own_add hH hl
  have := hX r s _ hs hoi
  rw [is_unique hH (own_index hH hoi).1 hi] at this
  rw [List.getD_eq_getElem?_getD, this]; rfl

theorem getD_some {w : List (Matrix (Fin N) (Fin V) K)} {n : Nat} (h : n < w.length) {a : Matrix (Fin N) (Fin V) K} (e : w.getD n 0 = a) : w[n]? = some a := by
  rw [← e, List.getD_eq_getElem _ _ h]
  exact List.getElem?_eq_getElem h

theorem part_congr {i j : Nat} {own : Matrix (Fin N) (Fin V) K} {X Y : Nat → Matrix (Fin N) (Fin V) K} (h : ∀ i', P.mate i j = some i' → X i' = Y i') :
    P.part i j own X = P.part i j own Y := by
  unfold Prob.part
  cases hm : P.mate i j with
  | none => rfl
  | some i' => simp only [h i' hm]

theorem linPart_congr {i j : Nat} {ξ own : Matrix (Fin N) (Fin V) K} {X Y : Nat → Matrix (Fin N) (Fin V) K} (h : ∀ i', P.mate i j = some i' → X i' = Y i') :
    P.linPart i j ξ own X = P.linPart i j ξ own Y := by
  unfold Prob.linPart
  cases hm : P.mate i j with
  | none => rfl
  | some i' => simp only [h i' hm]

/-- the effect of a pull -/
theorem pull_spec (h : OnMesh cl nl gc ranks outs rs P) {X : Nat → Matrix (Fin N) (Fin V) K} (hX : HasOwn cl rs (·.x) X) :
    ∃ rs', pullX gc rs = .ok rs' ∧ OnMesh cl nl gc ranks outs rs' P ∧ Has cl ranks rs' (·.x) X := by
  obtain ⟨rs', e1, g1, h1⟩ := each_rank h (fun s => do
    let g ← forRanks (fun _ q => do
      let p ← gc.search q
      match p with
      | none => .abort
      | some p => do
        let t ← idx rs p.1
        at64 t.x p.2) 0 s.sys.ghosts
    .ok { s with x := s.x.take s.sys.n ++ g })
    (fun r x s s' => ∀ l i : Nat, Is cl r x l i → s'.x[l]? = some (X i)) (by
    intro r x s hx hs
    have hH := h.dist.holds r _ hx
    obtain ⟨hn, hgh, _⟩ := h.own r _ s hx hs
    obtain ⟨hlx, hly, hld⟩ := h.lens r _ s hx hs
    obtain ⟨g, eg, lg, hg⟩ := N2C.forRanks_all (fun _ q => do
      let p ← gc.search q
      match p with
      | none => .abort
      | some p => do
        let t ← idx rs p.1
        at64 t.x p.2) (fun _ q v => v = X q.toNat) s.sys.ghosts (by
      intro k q hq
      rw [hgh] at hq
      have hlt := (List.getElem?_eq_some_iff.1 hq).1
      obtain ⟨i, hi, hgl⟩ := is_of_lt hH (l := x.nOwn + k) (by rw [hH.size]; simp only [RankIn.nOwn]; omega)
      have hno : ¬ Owns cl r i := fun h => by have := (is_own hH hi).2 h; omega
      have hqi : q = (i : Int) := by
        rcases hi with ⟨h, _⟩ | ⟨_, k', hk', n, hsz, e⟩ | ⟨_, _, e⟩
        · exact absurd h hno
        · rw [hH.cellMap.faithful.size] at hsz
          have := Option.some.inj hsz
          have : k' = k := by simp only [RankIn.nOwn] at e; omega
          subst this
          rw [hq] at hk'; exact Option.some.inj hk'
        · omega
      subst hqi
      obtain ⟨ρ, hρ⟩ := owns_exists hgl.1 hgl.2
      rw [search_of_owns h.dist.built hρ]
      simp only [Res.ok_bind]
      have hρl : ρ < rs.length := by rw [h.size, h.dist.nranks]; exact hρ.1
      have ht := List.getElem?_eq_getElem hρl
      rw [(idx_ok_iff _ _ _).2 ht]
      simp only [Res.ok_bind]
      have := hX ρ _ i ht hρ
      refine ⟨X i, ?_, by rw [Int.toNat_natCast]⟩
      have hge : (0 : Int) ≤ (i : Int) - before cl ρ := by obtain ⟨_, h, _⟩ := hρ; omega
      simp only [at64, if_pos hge]
      exact (idx_ok_iff _ _ _).2 this)
    have htl : (s.x.take s.sys.n).length = x.nOwn := by
      rw [List.length_take, hn, hlx]
      have := nOwn_le hH
      omega
    refine ⟨{ s with x := s.x.take s.sys.n ++ g }, by simp only [eg, Res.ok_bind], rfl, rfl, ⟨?_, hly, hld⟩, ?_⟩
    · show (s.x.take s.sys.n ++ g).length = _
      rw [List.length_append, htl, lg, hgh, hH.size]; simp only [RankIn.nOwn]
    intro l i hi
    show (s.x.take s.sys.n ++ g)[l]? = _
    by_cases hoi : Owns cl r i
    · have hl := (is_own hH hi).2 hoi
      rw [List.getElem?_append_left (by omega), hn, List.getElem?_take_of_lt hl]
      have := hX r s i hs hoi
      rwa [is_unique hH (own_index hH hoi).1 hi] at this
    · have hl : ¬ l < x.nOwn := fun h => hoi ((is_own hH hi).1 h)
      rw [List.getElem?_append_right (by omega), htl]
      rcases hi with ⟨h, _⟩ | ⟨_, k, hk, n, hsz, e⟩ | ⟨_, _, e⟩
      · exact absurd h hoi
      · rw [hH.cellMap.faithful.size] at hsz
        have := Option.some.inj hsz
        have : l - x.nOwn = k := by simp only [RankIn.nOwn] at e ⊢; omega
        rw [this]
        have hkg : k < g.length := by rw [lg, hgh]; exact (List.getElem?_eq_some_iff.1 hk).1
        have hgk := List.getElem?_eq_getElem hkg
        rw [hgk, hg k _ _ (by rw [hgh]; exact hk) hgk, Int.toNat_natCast]
      · omega)
  refine ⟨rs', e1, g1, ?_⟩
  intro r x s' i l hx hs' hi
  obtain ⟨x', s, hx', _, hg⟩ := h1 r s' hs'
  rw [hx] at hx'; cases hx'
  exact hg l i hi

end DNDSR.RecIt
