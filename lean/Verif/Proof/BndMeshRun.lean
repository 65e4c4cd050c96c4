import Verif.Proof.BndMesh

/-! Helper lemmas for `Verif.Props.BndMesh`: the nodes and cells of the boundary mesh on a rank. -/

namespace DNDSR.Bnd

open DNDSR.Elem DNDSR.IMap DNDSR.Faces DNDSR.MeshAdj DNDSR.N2C DNDSR.Tran
open DNDSR.Per (isPeriodic)

variable {V : Type}

theorem pullSet_eq {lens : List Nat} {gb : GOM} (hg : Built lens gb) (r : Nat) [DecidablePred fun v : Int => 0 ≤ v ∧ ¬ Owns lens r v] : ∀ (vs : List Int), (∀ v ∈ vs, 0 ≤ v → v < lens.sum) →
    pullSet gb r vs = .ok (vs.filter (fun v => 0 ≤ v ∧ ¬ Owns lens r v)) := by
  intro vs
  induction vs with
  | nil => intro _; rfl
  | cons v vs ih =>
    intro h
    have ih := ih (fun u hu => h u (by simp [hu]))
    by_cases hv : v < 0
    · rw [pullSet, if_pos hv, ih, List.filter_cons_of_neg (by simp; omega)]
    · obtain ⟨o, ho⟩ := owns_exists (q := v) (by omega) (h v (by simp) (by omega))
      rw [pullSet, if_neg hv, search_of_owns hg ho, Res.ok_bind]
      simp only [ih, Res.ok_bind]
      by_cases hr : o = r
      · subst hr
        rw [if_neg (by simp), List.filter_cons_of_neg (by simp only [decide_eq_true_eq]; exact fun hc => hc.2 ho)]
      · rw [if_pos hr, List.filter_cons_of_pos (by simp only [decide_eq_true_eq]; exact ⟨by omega, fun hc => hr (owns_unique ho hc)⟩)]

theorem setParents_spec : ∀ (ws : List Int) (i : Nat) (ps : List Int), (∀ w ∈ ws, w < ps.length) →
    (∀ (a b : Nat) (w : Int), ws[a]? = some w → ws[b]? = some w → 0 ≤ w → a = b) →
    ∃ ps', setParents i ps ws = .ok ps' ∧ ps'.length = ps.length ∧
      (∀ (k w : Nat), ws[k]? = some (w : Int) → ps'[w]? = some ((i + k : Nat) : Int)) ∧
      ∀ w : Nat, (w : Int) ∉ ws → ps'[w]? = ps[w]? := by
  intro ws
  induction ws with
  | nil => intro i ps _ _; exact ⟨ps, rfl, rfl, by simp, by simp⟩
  | cons u ws ih =>
    intro i ps h hinj
    have hinj' : ∀ (a b : Nat) (w : Int), ws[a]? = some w → ws[b]? = some w → 0 ≤ w → a = b := by
      intro a b w h1 h2 h3
      have := hinj (a + 1) (b + 1) w (by simpa using h1) (by simpa using h2) h3
      omega
    by_cases hu : u ≥ 0
    · have hul := h u (by simp)
      obtain ⟨ps', e, l, s1, s2⟩ := ih (i + 1) (ps.set u.toNat i) (fun w hw => by rw [List.length_set]; exact h w (by simp [hw])) hinj'
      refine ⟨ps', by rw [setParents, if_pos hu, if_pos (by omega), e], by rw [l, List.length_set], ?_, ?_⟩
      · intro k w hk
        cases k with
        | zero =>
          simp only [List.getElem?_cons_zero, Option.some.injEq] at hk
          have hnot : (w : Int) ∉ ws := by
            intro hm
            obtain ⟨k, hk'⟩ := List.mem_iff_getElem?.1 hm
            have := hinj 0 (k + 1) w (by simp [hk]) (by simpa using hk') (by omega)
            omega
          rw [s2 w hnot, show u.toNat = w by omega, List.getElem?_set_self (by omega)]; simp
        | succ k =>
          have := s1 k w (by simpa using hk)
          rw [this]; congr 2; omega
      · intro w hw
        rw [List.mem_cons, not_or] at hw
        rw [s2 w hw.2, List.getElem?_set_ne (by omega)]
    · obtain ⟨ps', e, l, s1, s2⟩ := ih (i + 1) ps (fun w hw => h w (by simp [hw])) hinj'
      refine ⟨ps', by rw [setParents, if_neg hu, e], l, ?_, ?_⟩
      · intro k w hk
        cases k with
        | zero => simp only [List.getElem?_cons_zero, Option.some.injEq] at hk; omega
        | succ k =>
          have := s1 k w (by simpa using hk)
          rw [this]; congr 2; omega
      · intro w hw
        rw [List.mem_cons, not_or] at hw
        exact s2 w hw.2

/-! ### cells -/

theorem bndCells_spec (per : Bool) (x : RankB V) (n2b : List Int) (P : BCell → Prop) : ∀ (bs : List BndRow) (k : Nat),
    (∀ (i : Nat) (b : BndRow), bs[i]? = some b → isPeriodic b.info.zone = false → ∃ c, bndCell per x n2b (k + i) b = .ok c ∧ c.parent = k + i ∧ P c) →
    ∃ cs, bndCells per x n2b k bs = .ok cs ∧ (∀ c ∈ cs, P c) ∧
      cs.map (·.parent) = ((List.range bs.length).filter (fun i => (bs[i]?.map fun b => !isPeriodic b.info.zone).getD false)).map (k + ·) := by
  intro bs
  induction bs with
  | nil => intro k _; exact ⟨[], rfl, by simp, by simp⟩
  | cons b bs ih =>
    intro k h
    obtain ⟨cs, e, hp, hm⟩ := ih (k + 1) (fun i b' hb' hz => by
      have := h (i + 1) b' (by simpa using hb') hz
      rwa [show k + (i + 1) = k + 1 + i by omega] at this)
    have hr : (List.range (b :: bs).length).filter (fun i => ((b :: bs)[i]?.map fun b => !isPeriodic b.info.zone).getD false) =
        (if isPeriodic b.info.zone then [] else [0]) ++
          ((List.range bs.length).filter (fun i => (bs[i]?.map fun b => !isPeriodic b.info.zone).getD false)).map (· + 1) := by
      rw [List.length_cons, List.range_succ_eq_map, List.filter_cons, List.filter_map]
      have hcomp : ((fun i => ((b :: bs)[i]?.map fun b => !isPeriodic b.info.zone).getD false) ∘ Nat.succ) =
          (fun i => (bs[i]?.map fun b => !isPeriodic b.info.zone).getD false) := by funext i; simp
      rw [hcomp]
      cases hb : isPeriodic b.info.zone <;> simp [hb]
    rw [hr, List.map_append, List.map_map]
    have hsh : ((List.range bs.length).filter (fun i => (bs[i]?.map fun b => !isPeriodic b.info.zone).getD false)).map ((k + ·) ∘ (· + 1)) = cs.map (·.parent) := by
      rw [hm]; apply List.map_congr_left; intro i _; simp only [Function.comp_apply]; omega
    rw [hsh]
    cases hb : isPeriodic b.info.zone with
    | true => exact ⟨cs, by rw [bndCells, if_pos hb, e], hp, by simp⟩
    | false =>
      obtain ⟨c, ec, hcp, hP⟩ := h 0 b (by simp) hb
      refine ⟨c :: cs, ?_, ?_, ?_⟩
      · rw [bndCells, if_neg (by simp [hb])]
        rw [Nat.add_zero] at ec
        rw [ec, Res.ok_bind, e]; rfl
      · intro c' hc'
        rcases List.mem_cons.1 hc' with rfl | hc'
        · exact hP
        · exact hp c' hc'
      · simp [hcp]

section given

variable {per : Bool} {nl : List Nat} {gn : GOM} {X : Nat → V} {xs : List (RankB V)}

open Classical in
/-- what is held for node `n` -/
noncomputable def val (nl : List Nat) (xs : List (RankB V)) (n : Nat) : Int := if OnBnd nl xs n then rankIn nl xs n else unInit

theorem val_on {n : Nat} (h : OnBnd nl xs n) : val nl xs n = rankIn nl xs n := by rw [val, if_pos h]
theorem val_off {n : Nat} (h : ¬ OnBnd nl xs n) : val nl xs n = unInit := by rw [val, if_neg h]
theorem val_nonneg {n : Nat} (h : 0 ≤ val nl xs n) : OnBnd nl xs n := by
  by_contra hc
  rw [val_off hc] at h
  exact absurd h (by decide)

theorem rankIn_inj {n n' : Nat} (h : OnBnd nl xs n) (h' : OnBnd nl xs n') (e : rankIn nl xs n = rankIn nl xs n') : n = n' := by
  classical
  unfold rankIn at e
  rcases Nat.lt_trichotomy n n' with hl | hl | hl
  · have := count_lt (OnBnd nl xs) h hl; omega
  · exact hl
  · have := count_lt (OnBnd nl xs) h' hl; omega

/-- the owner of a boundary node is the owner of the node -/
theorem owns_rank {lens counts : List Nat} (hl : counts.length = lens.length) {p : Nat → Prop} [DecidablePred p]
    (hb : ∀ r ≤ lens.length, before counts r = Nat.count p (before lens r)) {r n : Nat} (hp : p n) :
    (Owns counts r (Nat.count p n) ↔ Owns lens r n) := by
  have key : ∀ r n, p n → Owns lens r n → Owns counts r (Nat.count p n) := by
    intro r n hp ho
    have hr := ho.1
    rw [owns_iff _ r (by omega)]
    rw [owns_iff _ r hr] at ho
    rw [hb r (by omega), hb (r + 1) (by omega)]
    have h1 := Nat.count_monotone p (show before lens r ≤ n by omega)
    have h2 := count_lt p hp (show n < before lens (r + 1) by omega)
    omega
  refine ⟨fun ho => ?_, key r n hp⟩
  have htot : (Nat.count p n : Int) < counts.sum := (owns_range ho).2
  have e1 : counts.sum = before counts lens.length := by rw [← hl]; simp [before]
  have e2 : lens.sum = before lens lens.length := by simp [before]
  rw [e1, hb _ (le_refl _), ← e2] at htot
  have hn : n < lens.sum := by
    by_contra hc
    have := Nat.count_monotone p (show lens.sum ≤ n by omega)
    omega
  obtain ⟨s, hs⟩ := owns_exists (lens := lens) (q := n) (by omega) (by omega)
  have := owns_unique ho (key s n hp hs)
  rwa [this]

/-- the numbers all held nodes have after the pull -/
theorem all_spec (h : Given per nl gn X xs) {owns : List (List Int)} {counts : List Nat} (hn : bndNumbers gn xs = .ok (owns, counts)) :
    ∃ alls, forRanks (fun _ (x : RankB V × List Int) => (do
        let son ← forRanks (fun _ q => fetch gn owns q) 0 x.1.nodeMap.ghostIndex
        .ok (x.2 ++ son) : Res (List Int))) 0 (xs.zip owns) = .ok alls ∧ alls.length = xs.length ∧
      ∀ (r : Nat) (x : RankB V) (all : List Int), xs[r]? = some x → alls[r]? = some all → all.length = x.nProc ∧
        ∀ n v : Nat, LocalName nl r x.nodeMap.ghostIndex n v → all[v]? = some (val nl xs n) := by
  obtain ⟨owns', counts', hn', hol, hcl, hbef, hown⟩ := bndNumbers_spec h
  rw [hn] at hn'; cases hn'
  have hv : ∀ (r v : Nat) (own : List Int) (x : RankB V), owns[r]? = some own → xs[r]? = some x → v < x.nNode → own[v]? = some (val nl xs (before nl r + v)) := by
    intro r v own x h1 h2 h3
    obtain ⟨a, b⟩ := (hown r v own x h1 h2).2 h3
    by_cases hon : OnBnd nl xs (before nl r + v)
    · rw [val_on hon]; exact a hon
    · rw [val_off hon]; exact b hon
  have hfetch : ∀ (r : Nat) (x : RankB V) (q : Int), xs[r]? = some x → q ∈ x.nodeMap.ghostIndex → fetch gn owns q = .ok (val nl xs q.toNat) := by
    intro r x q hx hq
    obtain ⟨a, b⟩ := (h.faithful hx).loc.range q hq
    obtain ⟨s, hs⟩ := owns_exists a b
    have hsl := hs.1
    have hxs : xs[s]? = some (xs[s]'(by rw [h.len]; exact hsl)) := by simp
    have hos : owns[s]? = some (owns[s]'(by rw [hol, h.len]; exact hsl)) := by simp
    refine fetch_eq h.built hs hos ?_
    have hs' := ((h.faithful hxs).owns_iff q).1 hs
    rw [hv s _ _ _ hos hxs (by unfold RankB.nNode; omega)]
    congr 2; omega
  obtain ⟨alls, ha, hal, hall⟩ := forRanks_all (fun _ (x : RankB V × List Int) => (do
        let son ← forRanks (fun _ q => fetch gn owns q) 0 x.1.nodeMap.ghostIndex
        .ok (x.2 ++ son) : Res (List Int))) (fun _ x all => all = x.2 ++ x.1.nodeMap.ghostIndex.map (fun q => val nl xs q.toNat)) (xs.zip owns) (by
    rintro r ⟨x, own⟩ hr
    obtain ⟨hx, ho⟩ := List.getElem?_zip_eq_some.1 hr
    refine ⟨_, ?_, rfl⟩
    simp only
    rw [forRanks_eq_map (h := fun q => val nl xs q.toNat) _ (fun i q hq => hfetch r x q hx (List.mem_of_getElem? hq))]
    rfl)
  refine ⟨alls, ha, by rw [hal, List.length_zip]; omega, ?_⟩
  intro r x all hx hr
  have hrl := (List.getElem?_eq_some_iff.1 hx).1
  have hor : owns[r]? = some (owns[r]'(by omega)) := by simp
  have hz : (xs.zip owns)[r]? = some (x, owns[r]'(by omega)) := List.getElem?_zip_eq_some.2 ⟨hx, hor⟩
  have e := hall r _ _ hz hr
  have hol2 := (hown r 0 _ x hor hx).1
  subst e
  refine ⟨by simp only [List.length_append, List.length_map, hol2]; rfl, ?_⟩
  intro n v hnm
  simp only
  rcases hnm with ⟨ho, e⟩ | ⟨_, k, hk, m, hm, e⟩ | ⟨_, _, e⟩
  · have ho' := ((h.faithful hx).owns_iff n).1 ho
    rw [List.getElem?_append_left (by rw [hol2]; unfold RankB.nNode; omega), hv r v _ x hor hx (by unfold RankB.nNode; omega)]
    congr 2; omega
  · rw [h.lens hx] at hm; cases hm
    rw [List.getElem?_append_right (by omega), hol2, show v - x.nNode = k by omega, List.getElem?_map, hk]
    simp
  · omega

/-- what `node2bndNode`, `node2parentNode` and `coords` of a rank say -/
structure NodesOk (nl counts : List Nat) (X : Nat → V) (xs : List (RankB V)) (r : Nat) (x : RankB V) (o : OutB V) : Prop where
  bound : ∀ n v : Nat, LocalName nl r x.nodeMap.ghostIndex n v → OnBnd nl xs n →
    ∃ w, o.node2bnd[v]? = some w ∧ 0 ≤ w ∧ LocalName counts r o.map.ghostIndex (rankIn nl xs n) w
  inner : ∀ n v : Nat, LocalName nl r x.nodeMap.ghostIndex n v → ¬ OnBnd nl xs n → o.node2bnd[v]? = some unInit
  len1 : o.node2bnd.length = x.nProc
  len2 : o.parents.length = o.map.mainSize + o.map.ghostIndex.length
  len3 : o.coords.length = o.map.mainSize + o.map.ghostIndex.length
  parent : ∀ v w : Nat, o.node2bnd[v]? = some (w : Int) ↔ o.parents[w]? = some (v : Int)
  parented : ∀ w : Nat, w < o.parents.length → ∃ v : Nat, o.parents[w]? = some (v : Int)
  coords : ∀ n w : Nat, OnBnd nl xs n → LocalName counts r o.map.ghostIndex (rankIn nl xs n) w → o.coords[w]? = some (X n)

theorem nodesOf_spec (h : Given per nl gn X xs) {counts : List Nat} (hcl : counts.length = nl.length)
    (hbef : ∀ r ≤ nl.length, before counts r = rankIn nl xs (before nl r)) {r : Nat} {x : RankB V} (hx : xs[r]? = some x) {all : List Int}
    (hall : all.length = x.nProc) (hav : ∀ n v : Nat, LocalName nl r x.nodeMap.ghostIndex n v → all[v]? = some (val nl xs n)) {m : Map}
    (hf : Faithful counts r m) (hgi : ∀ q, q ∈ m.ghostIndex ↔ q ∈ all ∧ 0 ≤ q ∧ ¬ Owns counts r q) :
    ∃ o, nodesOf x all m = .ok o ∧ o.map = m ∧ NodesOk nl counts X xs r x o := by
  classical
  have hno : ∀ q ∈ m.ghostIndex, ¬ Owns counts r q := fun q hq => ((hgi q).1 hq).2.2
  obtain ⟨n2b, hn2b, hnl, hn⟩ := forRanks_all (fun (_ : Nat) v => (do
      let w ← global2Local m v
      Res.assert (v = unInit ∨ w ≥ 0)
      .ok w : Res Int)) (fun _ v w => (v = unInit ∧ w = unInit) ∨ (0 ≤ v ∧ 0 ≤ w ∧ LocalName counts r m.ghostIndex v w)) all (by
    intro v z hz
    have hvl := (List.getElem?_eq_some_iff.1 hz).1
    obtain ⟨n, _, hnm⟩ := h.name hx (v := v) (by omega)
    have e := hav n v hnm
    rw [hz] at e
    by_cases hon : OnBnd nl xs n
    · rw [val_on hon] at e
      have hz' := Option.some.inj e
      obtain ⟨w, ew, hw⟩ := hf.global2Local_eq z (by rw [hz']; simp only [Part.unInit]; omega)
      have hw0 : 0 ≤ w := by
        by_contra hc
        rcases hw with ⟨ho, e⟩ | ⟨_, k, _, n, _, e⟩ | ⟨ho, hg, e⟩
        · have := ho.2.1; omega
        · omega
        · exact hg ((hgi z).2 ⟨List.mem_of_getElem? hz, by omega, ho⟩)
      refine ⟨w, ?_, Or.inr ⟨by omega, hw0, hw⟩⟩
      rw [ew, Res.ok_bind, Res.assert_true _ (Or.inr hw0)]; rfl
    · rw [val_off hon] at e
      cases e
      refine ⟨unInit, ?_, Or.inl ⟨rfl, rfl⟩⟩
      rw [global2Local, if_pos (show unInit = Part.unInit from rfl), Res.ok_bind, Res.assert_true _ (Or.inl rfl)]; rfl)
  have hbound : ∀ n v : Nat, LocalName nl r x.nodeMap.ghostIndex n v → OnBnd nl xs n →
      ∃ w, n2b[v]? = some w ∧ 0 ≤ w ∧ LocalName counts r m.ghostIndex (rankIn nl xs n) w := by
    intro n v hnm hon
    have e := hav n v hnm
    have hvl := (List.getElem?_eq_some_iff.1 e).1
    have hg : n2b[v]? = some (n2b[v]'(by omega)) := by simp
    rcases hn v _ _ e hg with ⟨e1, _⟩ | ⟨_, h2, h3⟩
    · rw [val_on hon] at e1; simp only [unInit] at e1; omega
    · rw [val_on hon] at h3; exact ⟨_, hg, h2, h3⟩
  have hinner : ∀ n v : Nat, LocalName nl r x.nodeMap.ghostIndex n v → ¬ OnBnd nl xs n → n2b[v]? = some unInit := by
    intro n v hnm hon
    have e := hav n v hnm
    have hvl := (List.getElem?_eq_some_iff.1 e).1
    have hg : n2b[v]? = some (n2b[v]'(by omega)) := by simp
    rcases hn v _ _ e hg with ⟨_, e2⟩ | ⟨h1, _⟩
    · rw [hg, e2]
    · rw [val_off hon] at h1; exact absurd h1 (by decide)
  -- who has number `w`
  have hwho : ∀ (v w : Nat), n2b[v]? = some (w : Int) → ∃ n : Nat, LocalName nl r x.nodeMap.ghostIndex n v ∧ OnBnd nl xs n ∧
      LocalName counts r m.ghostIndex (rankIn nl xs n) w := by
    intro v w hw
    have hvl := (List.getElem?_eq_some_iff.1 hw).1
    obtain ⟨n, _, hnm⟩ := h.name hx (v := v) (by omega)
    by_cases hon : OnBnd nl xs n
    · obtain ⟨w', e, _, hl⟩ := hbound n v hnm hon
      rw [hw] at e; cases e
      exact ⟨n, hnm, hon, hl⟩
    · have := hinner n v hnm hon
      rw [hw] at this
      have := Option.some.inj this
      simp only [unInit] at this; omega
  have hsurj : ∀ w : Nat, w < m.mainSize + m.ghostIndex.length → ∃ v : Nat, n2b[v]? = some (w : Int) := by
    intro w hw
    obtain ⟨q, hq, hqn⟩ := name_of_lt hf hno hw
    have e1 : counts.sum = before counts nl.length := by rw [← hcl]; simp [before]
    have e2 : nl.sum = before nl nl.length := by simp [before]
    have hql : q < rankIn nl xs nl.sum := by
      have := hq.2; rw [e1, hbef _ (le_refl _), ← e2] at this; omega
    obtain ⟨n, hn1, hon, hnq⟩ := count_surj (OnBnd nl xs) q nl.sum hql
    have hnq' : rankIn nl xs n = q := hnq
    have hv : ∃ v : Nat, LocalName nl r x.nodeMap.ghostIndex n v := by
      by_cases ho : Owns counts r q
      · apply name_exists (h.faithful hx)
        left
        exact (owns_rank hcl hbef hon).1 (by rw [hnq]; exact ho)
      · rcases hqn with ⟨ho', _⟩ | ⟨_, k, hk, _⟩ | ⟨_, _, e⟩
        · exact absurd ho' ho
        · have hmem := ((hgi q).1 (List.mem_of_getElem? hk)).1
          obtain ⟨v, hv⟩ := List.mem_iff_getElem?.1 hmem
          have hvl := (List.getElem?_eq_some_iff.1 hv).1
          obtain ⟨n', _, hnm⟩ := h.name hx (v := v) (by omega)
          have e := hav n' v hnm
          rw [hv] at e
          have e' := Option.some.inj e
          have hon' := val_nonneg (nl := nl) (xs := xs) (n := n') (by omega)
          rw [val_on hon'] at e'
          have : n = n' := rankIn_inj hon hon' (by omega)
          subst this
          exact ⟨v, hnm⟩
        · omega
    obtain ⟨v, hv⟩ := hv
    obtain ⟨w', e, _, hl⟩ := hbound n v hv hon
    rw [hnq'] at hl
    refine ⟨v, ?_⟩
    rw [e, hf.name_unique hl hqn]
  have hinj : ∀ (a b : Nat) (w : Int), n2b[a]? = some w → n2b[b]? = some w → 0 ≤ w → a = b := by
    intro a b w ha hb hw
    have hwn : ((w.toNat : Nat) : Int) = w := by omega
    rw [← hwn] at ha hb
    obtain ⟨n, h1, h2, h3⟩ := hwho a _ ha
    obtain ⟨n', h1', h2', h3'⟩ := hwho b _ hb
    have := Faces.name_inj hf (by omega) (by omega) (by omega) h3 h3'
    have : n = n' := rankIn_inj h2 h2' (by omega)
    subst this
    have := (h.faithful hx).name_unique h1 h1'
    omega
  obtain ⟨ps, hps, hpl, hp1, _⟩ := setParents_spec n2b 0 (List.replicate (m.mainSize + m.ghostIndex.length) 0) (by
    intro w hw
    rw [List.length_replicate]
    by_cases hw0 : 0 ≤ w
    · obtain ⟨v, hv⟩ := List.mem_iff_getElem?.1 hw
      have hwn : ((w.toNat : Nat) : Int) = w := by omega
      rw [← hwn] at hv
      obtain ⟨n, _, _, h3⟩ := hwho v _ hv
      have := name_lt hf (by omega) h3 (by omega)
      push_cast; omega
    · push_cast; omega) hinj
  rw [List.length_replicate] at hpl
  have hpar : ∀ v w : Nat, n2b[v]? = some (w : Int) → ps[w]? = some (v : Int) := by
    intro v w hv
    have := hp1 v w hv
    rwa [Nat.zero_add] at this
  have hparr : ∀ w : Nat, w < m.mainSize + m.ghostIndex.length → ∃ v : Nat, ps[w]? = some (v : Int) ∧ n2b[v]? = some (w : Int) := by
    intro w hw
    obtain ⟨v, hv⟩ := hsurj w hw
    exact ⟨v, hpar v w hv, hv⟩
  obtain ⟨cs, hcs, hcsl, hc⟩ := forRanks_all (fun (_ : Nat) p => at64 x.coords p) (fun _ p c => x.coords[p.toNat]? = some c) ps (by
    intro w p hp
    have hwl := (List.getElem?_eq_some_iff.1 hp).1
    obtain ⟨v, hv, hvn⟩ := hparr w (by omega)
    rw [hp] at hv
    have hpv := Option.some.inj hv
    have hvl := (List.getElem?_eq_some_iff.1 hvn).1
    exact at64_eq (by omega) (by rw [h.size x (List.mem_of_getElem? hx)]; omega))
  refine ⟨⟨m, cs, n2b, ps, []⟩, ?_, rfl, hbound, hinner, by simp only; omega, hpl, by simp only; omega, ?_, ?_, ?_⟩
  · rw [nodesOf, node2Bnd, hn2b, Res.ok_bind, hps, Res.ok_bind, hcs]; rfl
  · intro v w
    refine ⟨hpar v w, fun hv => ?_⟩
    have hwl := (List.getElem?_eq_some_iff.1 hv).1
    simp only at hv hwl
    obtain ⟨v', hv', hvn⟩ := hparr w (by omega)
    rw [hv] at hv'
    have := Option.some.inj hv'
    have : v = v' := by omega
    subst this
    exact hvn
  · intro w hw
    obtain ⟨v, hv, _⟩ := hparr w (by simp only at hw; omega)
    exact ⟨v, hv⟩
  · intro n w hon hnm
    simp only at hnm ⊢
    have hwl := name_lt hf (by omega) hnm (by omega)
    obtain ⟨v, hv, hvn⟩ := hparr w (by omega)
    obtain ⟨n', h1, h2, h3⟩ := hwho v w hvn
    have := Faces.name_inj hf (by omega) (by omega) (by omega) hnm h3
    have : n = n' := rankIn_inj hon h2 (by omega)
    subst this
    have hg : cs[w]? = some (cs[w]'(by omega)) := by simp
    have := hc w _ _ hv hg
    rw [hg, ← this, Int.toNat_natCast, h.coords r x n v hx h1]

/-- a cell -/
theorem bndCell_spec (h : Given per nl gn X xs) {counts : List Nat} {r : Nat} {x : RankB V} (hx : xs[r]? = some x) {o : OutB V}
    (hok : NodesOk nl counts X xs r x o) {k : Nat} {b : BndRow} (hb : x.bnds[k]? = some b) (hz : isPeriodic b.info.zone = false) (o' : OutB V) (ho' : o'.map = o.map) :
    ∃ c, bndCell per x o.node2bnd k b = .ok c ∧ c.parent = k ∧ CellOf per nl counts xs r x o' c := by
  obtain ⟨hbl, hface⟩ := h.faces x (List.mem_of_getElem? hx)
  have hkl := (List.getElem?_eq_some_iff.1 hb).1
  have hbm := List.mem_of_getElem? hb
  have hq : x.bnd2face[k]? = some (x.bnd2face[k]'(by omega)) := by simp
  obtain ⟨q, hqe⟩ : ∃ q, x.bnd2face[k]'(by omega) = q := ⟨_, rfl⟩
  rw [hqe] at hq
  -- the nodes
  have hnode : ∀ u ∈ b.nodes, ∃ w n : Nat, at64 o.node2bnd u = .ok (w : Int) ∧ OnBnd nl xs n ∧ LocalName nl r x.nodeMap.ghostIndex n u ∧
      LocalName counts r o.map.ghostIndex (rankIn nl xs n) w := by
    intro u hu
    obtain ⟨u0, u1⟩ := h.nodes x (List.mem_of_getElem? hx) b hbm u hu
    have hun : ((u.toNat : Nat) : Int) = u := by omega
    obtain ⟨n, _, hnm⟩ := h.name hx (v := u.toNat) (by omega)
    have hon : OnBnd nl xs n := ⟨r, x, b, u, hx, hbm, hu, by rw [hun] at hnm; exact hnm⟩
    obtain ⟨w, e, hw0, hwn⟩ := hok.bound n u.toNat hnm hon
    obtain ⟨z, e1, e2⟩ := at64_eq (l := o.node2bnd) (v := u) u0 (by rw [hok.len1]; omega)
    rw [e] at e2; cases e2
    refine ⟨w.toNat, n, by rw [e1, Int.toNat_of_nonneg hw0], hon, by rw [hun] at hnm; exact hnm, by rw [Int.toNat_of_nonneg hw0]; exact hwn⟩
  -- where they come from
  have hsrc : ∃ src pbi, srcNodes x.faces q b = .ok src ∧ srcPbi per x.faces q b = .ok pbi ∧ src.Perm b.nodes ∧
      ((q < 0 ∧ src = b.nodes ∧ (per = true → pbi = List.replicate b.nodes.length 0#8)) ∨
       ∃ f, 0 ≤ q ∧ x.faces[q.toNat]? = some f ∧ src = f.slot.nodes ∧ (per = true → pbi = f.slot.pbi)) := by
    by_cases hq0 : q < 0
    · refine ⟨b.nodes, if per then List.replicate b.nodes.length 0#8 else [], by rw [srcNodes, if_pos hq0], ?_, List.Perm.refl _, Or.inl ⟨hq0, rfl, ?_⟩⟩
      · rw [srcPbi, if_pos hq0]; split <;> rfl
      · intro hp; rw [if_pos hp]
    · obtain ⟨f, hf, hperm, hpl⟩ := hface k b q hb hq (by omega) hz
      have hfl := (List.getElem?_eq_some_iff.1 hf).1
      obtain ⟨f', e1, e2⟩ := at64_eq (l := x.faces) (v := q) (by omega) (by omega)
      rw [hf] at e2; cases e2
      cases hper : per with
      | false =>
        exact ⟨f.slot.nodes, [], by rw [srcNodes, if_neg hq0, e1]; rfl, by rw [srcPbi, if_neg (by simp)], hperm,
          Or.inr ⟨f, by omega, hf, rfl, by simp⟩⟩
      | true =>
        refine ⟨f.slot.nodes, f.slot.pbi, by rw [srcNodes, if_neg hq0, e1]; rfl, ?_, hperm, Or.inr ⟨f, by omega, hf, rfl, fun _ => rfl⟩⟩
        rw [srcPbi, if_pos rfl, if_neg hq0, e1, Res.ok_bind]
        have hl : f.slot.pbi.length = b.nodes.length := by rw [hpl hper, hperm.length_eq]
        refine (forRanks_ok _ _ _ _).2 ⟨hl, ?_⟩
        intro i u hu
        have hul := (List.getElem?_eq_some_iff.1 hu).1
        have hg : f.slot.pbi[i]? = some (f.slot.pbi[i]'(by omega)) := by simp
        exact ⟨_, hg, by rw [Nat.zero_add]; exact (idx_ok_iff _ _ _).2 hg⟩
  obtain ⟨src, pbi, es, ep, hperm, hcase⟩ := hsrc
  have hsl := hperm.length_eq
  obtain ⟨nodes, hnodes, hnl, hnd⟩ := forRanks_all (fun p v => (do
      let u ← idx src p
      let w ← at64 o.node2bnd u
      let w0 ← at64 o.node2bnd v
      Res.assert (w0 ≥ 0)
      .ok w : Res Int)) (fun p _ w => ∃ u, src[p]? = some u ∧ at64 o.node2bnd u = .ok w) b.nodes (by
    intro p v hv
    have hvl := (List.getElem?_eq_some_iff.1 hv).1
    have hu : src[p]? = some (src[p]'(by omega)) := by simp
    obtain ⟨w, n, ew, _⟩ := hnode _ (hperm.mem_iff.1 (List.mem_of_getElem? hu))
    obtain ⟨w0, n0, ew0, _⟩ := hnode v (List.mem_of_getElem? hv)
    refine ⟨w, ?_, _, hu, ew⟩
    rw [(idx_ok_iff _ _ _).2 hu, Res.ok_bind, ew, Res.ok_bind, ew0, Res.ok_bind, Res.assert_true _ (by omega)]; rfl)
  refine ⟨⟨nodes, pbi, b.info, k⟩, ?_, rfl, b, q, src, hb, hz, hq, rfl, hnl, hsl, hcase, ?_⟩
  · rw [bndCell, (idx_ok_iff _ _ _).2 hq, Res.ok_bind, es, Res.ok_bind, hnodes, Res.ok_bind, ep]; rfl
  · intro p u w hu hw
    have hpl := (List.getElem?_eq_some_iff.1 hu).1
    have hv : b.nodes[p]? = some (b.nodes[p]'(by omega)) := by simp
    obtain ⟨u', hu', ew⟩ := hnd p _ _ hv hw
    rw [hu] at hu'; cases hu'
    obtain ⟨w', n, ew', hon, h1, h2⟩ := hnode u (hperm.mem_iff.1 (List.mem_of_getElem? hu))
    rw [ew] at ew'; cases ew'
    exact ⟨n, hon, h1, by omega, by rw [ho']; exact h2⟩

end given

end DNDSR.Bnd
