import Verif.Spec.BndMesh
import Verif.Proof.FacesExchange
import Verif.Proof.Node2CellRun
import Verif.Proof.TransPush
import Verif.Proof.Reorder
import Verif.Props.IndexMapping

/-! Helper lemmas for `Verif.Props.BndMesh`: which nodes are on the boundary, and their numbers. -/

namespace DNDSR.Bnd

open DNDSR.Elem DNDSR.IMap DNDSR.Faces DNDSR.MeshAdj DNDSR.N2C DNDSR.Tran
open DNDSR.Per (isPeriodic)

variable {V : Type}

/-! ### counting references -/

theorem addAt_spec {cont : List Nat} {c : Int} (h0 : 0 ≤ c) (h1 : c < cont.length) (k : Nat) :
    ∃ c', addAt cont c k = .ok c' ∧ c'.length = cont.length ∧
      ∀ v : Nat, v < cont.length → (c'[v]?.getD 0 ≠ 0 ↔ cont[v]?.getD 0 ≠ 0 ∨ ((v : Int) = c ∧ k ≠ 0)) := by
  obtain ⟨n, e, he⟩ := at64_eq h0 h1
  refine ⟨cont.set c.toNat (n + k), by rw [addAt, e]; rfl, by simp, ?_⟩
  intro v hv
  by_cases hc : c.toNat = v
  · subst hc
    rw [List.getElem?_set_self hv, he]
    simp only [Option.getD_some]
    have : ((c.toNat : Nat) : Int) = c := by omega
    simp only [this, true_and]
    omega
  · rw [List.getElem?_set_ne hc]
    have : ¬ ((v : Int) = c) := by omega
    simp [this]

theorem refRow_spec : ∀ (row : List Int) (cont : List Nat), (∀ v ∈ row, 0 ≤ v ∧ v < cont.length) →
    ∃ c', refRow cont row = .ok c' ∧ c'.length = cont.length ∧
      ∀ v : Nat, v < cont.length → (c'[v]?.getD 0 ≠ 0 ↔ cont[v]?.getD 0 ≠ 0 ∨ (v : Int) ∈ row) := by
  intro row
  induction row with
  | nil => intro cont _; exact ⟨cont, rfl, rfl, by simp⟩
  | cons u row ih =>
    intro cont h
    obtain ⟨c1, e1, l1, s1⟩ := addAt_spec (h u (by simp)).1 (h u (by simp)).2 1
    obtain ⟨c2, e2, l2, s2⟩ := ih c1 (fun v hv => by rw [l1]; exact h v (by simp [hv]))
    refine ⟨c2, by rw [refRow, e1, Res.ok_bind, e2], by omega, ?_⟩
    intro v hv
    rw [s2 v (by omega), s1 v hv, List.mem_cons]
    simp only [ne_eq, one_ne_zero, not_false_eq_true, and_true]
    tauto

theorem refBnds_spec : ∀ (bs : List BndRow) (cont : List Nat), (∀ b ∈ bs, ∀ v ∈ b.nodes, 0 ≤ v ∧ v < cont.length) →
    ∃ c', refBnds cont bs = .ok c' ∧ c'.length = cont.length ∧
      ∀ v : Nat, v < cont.length → (c'[v]?.getD 0 ≠ 0 ↔ cont[v]?.getD 0 ≠ 0 ∨ ∃ b ∈ bs, (v : Int) ∈ b.nodes) := by
  intro bs
  induction bs with
  | nil => intro cont _; exact ⟨cont, rfl, rfl, by simp⟩
  | cons b bs ih =>
    intro cont h
    obtain ⟨c1, e1, l1, s1⟩ := refRow_spec b.nodes cont (h b (by simp))
    obtain ⟨c2, e2, l2, s2⟩ := ih c1 (fun b' hb' => by rw [l1]; exact h b' (by simp [hb']))
    refine ⟨c2, by rw [refBnds, e1, Res.ok_bind, e2], by omega, ?_⟩
    intro v hv
    rw [s2 v (by omega), s1 v hv]
    simp only [List.mem_cons, exists_eq_or_imp]
    tauto

theorem addPast_spec {nl : List Nat} {gn : GOM} (hg : Built nl gn) (r : Nat) : ∀ (ps : List (Int × Nat)) (cont : List Nat),
    (∀ p ∈ ps, Owns nl r p.1 ∧ p.1 - before nl r < cont.length) →
    ∃ c', addPast gn r cont ps = .ok c' ∧ c'.length = cont.length ∧
      ∀ v : Nat, v < cont.length → (c'[v]?.getD 0 ≠ 0 ↔ cont[v]?.getD 0 ≠ 0 ∨ ∃ p ∈ ps, (v : Int) = p.1 - before nl r ∧ p.2 ≠ 0) := by
  intro ps
  induction ps with
  | nil => intro cont _; exact ⟨cont, rfl, rfl, by simp⟩
  | cons p ps ih =>
    intro cont h
    obtain ⟨q, k⟩ := p
    obtain ⟨ho, hlt⟩ := h (q, k) (by simp)
    obtain ⟨c1, e1, l1, s1⟩ := addAt_spec (cont := cont) (c := q - before nl r) (by have := ho.2.1; omega) hlt k
    obtain ⟨c2, e2, l2, s2⟩ := ih c1 (fun p' hp' => by rw [l1]; exact h p' (by simp [hp']))
    refine ⟨c2, ?_, by omega, ?_⟩
    · rw [addPast, search_of_owns hg ho, Res.ok_bind]
      simp only
      rw [Res.assert_true _ trivial, Res.ok_bind, e1, Res.ok_bind, e2]
    · intro v hv
      rw [s2 v (by omega), s1 v hv]
      simp only [List.mem_cons, exists_eq_or_imp]
      tauto

/-! ### numbers -/

theorem numberOwn_spec : ∀ (ns : List Nat) (c : Nat), (numberOwn c ns).1.length = ns.length ∧
    (numberOwn c ns).2 = c + ns.countP (fun n => !(n == 0)) ∧
    ∀ (v n : Nat), ns[v]? = some n → (numberOwn c ns).1[v]? =
      some (if n = 0 then unInit else ((c + (ns.take v).countP (fun n => !(n == 0)) : Nat) : Int)) := by
  intro ns
  induction ns with
  | nil => intro c; simp [numberOwn]
  | cons a ns ih =>
    intro c
    by_cases ha : a = 0
    · obtain ⟨i1, i2, i3⟩ := ih c
      have e : numberOwn c (a :: ns) = (unInit :: (numberOwn c ns).1, (numberOwn c ns).2) := by rw [numberOwn, if_pos ha]
      rw [e]
      refine ⟨by simp [i1], by simp [i2, ha], ?_⟩
      intro v n hv
      cases v with
      | zero => simp only [List.getElem?_cons_zero, Option.some.injEq] at hv ⊢; rw [if_pos (by omega)]
      | succ v =>
        simp only [List.getElem?_cons_succ] at hv ⊢
        rw [i3 v n hv, List.take_succ_cons, List.countP_cons]
        simp [ha]
    · obtain ⟨i1, i2, i3⟩ := ih (c + 1)
      have e : numberOwn c (a :: ns) = ((c : Int) :: (numberOwn (c + 1) ns).1, (numberOwn (c + 1) ns).2) := by rw [numberOwn, if_neg ha]
      rw [e]
      refine ⟨by simp [i1], by simp [i2, ha]; omega, ?_⟩
      intro v n hv
      cases v with
      | zero => simp only [List.getElem?_cons_zero, Option.some.injEq] at hv ⊢; rw [if_neg (by omega)]; simp
      | succ v =>
        simp only [List.getElem?_cons_succ] at hv ⊢
        rw [i3 v n hv, List.take_succ_cons, List.countP_cons]
        simp only [ha, beq_iff_eq, Bool.not_eq_true', beq_eq_false_iff_ne, ne_eq, not_false_eq_true, if_true]
        split
        · rfl
        · congr 2; omega

theorem countP_eq_count (p : Nat → Prop) [DecidablePred p] (ns : List Nat) (a : Nat) : ∀ v, v ≤ ns.length →
    (∀ (k n : Nat), ns[k]? = some n → (n ≠ 0 ↔ p (a + k))) → (ns.take v).countP (fun n => !(n == 0)) = Nat.count (fun k => p (a + k)) v := by
  intro v
  induction v with
  | zero => intro _ _; simp
  | succ v ih =>
    intro hv h
    rw [List.take_succ, List.countP_append, ih (by omega) h, Nat.count_succ]
    have hk : ns[v]? = some (ns[v]'(by omega)) := by simp
    have := h v _ hk
    rw [hk]
    by_cases hp : p (a + v)
    · rw [if_pos hp]; simp [this.2 hp]
    · rw [if_neg hp]
      have h0 : ns[v]'(by omega) = 0 := by by_contra hc; exact hp (this.1 hc)
      simp [h0]

theorem count_lt (p : Nat → Prop) [DecidablePred p] {a b : Nat} (hp : p a) (h : a < b) : Nat.count p a < Nat.count p b := by
  have h1 := Nat.count_monotone p (show a + 1 ≤ b from h)
  rw [Nat.count_succ, if_pos hp] at h1
  omega

theorem count_surj (p : Nat → Prop) [DecidablePred p] (q : Nat) : ∀ N, q < Nat.count p N → ∃ n, n < N ∧ p n ∧ Nat.count p n = q := by
  intro N
  induction N with
  | zero => intro h; simp at h
  | succ N ih =>
    intro h
    rw [Nat.count_succ] at h
    by_cases hq : q < Nat.count p N
    · obtain ⟨n, h1, h2, h3⟩ := ih hq
      exact ⟨n, by omega, h2, h3⟩
    · by_cases hp : p N
      · rw [if_pos hp] at h
        exact ⟨N, by omega, hp, by omega⟩
      · rw [if_neg hp] at h; omega

/-! ### what is given -/

section given

variable {per : Bool} {nl : List Nat} {gn : GOM} {X : Nat → V} {xs : List (RankB V)}

theorem Given.ok (h : Given per nl gn X xs) : ∃ reqs, Maps nl reqs (xs.map (·.nodeMap)) := by
  obtain ⟨reqs, hn, hm⟩ := h.maps
  obtain ⟨h1, h2⟩ := createPull_spec h.built reqs hn _ hm
  exact ⟨reqs, h1, hn, h2⟩

theorem Given.len (h : Given per nl gn X xs) : xs.length = nl.length := by
  obtain ⟨_, hm⟩ := h.ok
  simpa using hm.len

theorem Given.faithful (h : Given per nl gn X xs) {r : Nat} {x : RankB V} (hx : xs[r]? = some x) : Faithful nl r x.nodeMap := by
  obtain ⟨_, hm⟩ := h.ok
  exact .of_pull (hm.ok r x.nodeMap (by rw [List.getElem?_map, hx]; rfl))

theorem Given.lens (h : Given per nl gn X xs) {r : Nat} {x : RankB V} (hx : xs[r]? = some x) : nl[r]? = some x.nNode := (h.faithful hx).size

/-- a node of an own element has a number -/
theorem Given.name (h : Given per nl gn X xs) {r : Nat} {x : RankB V} (hx : xs[r]? = some x) {v : Nat} (hv : v < x.nProc) :
    ∃ n : Nat, n < nl.sum ∧ LocalName nl r x.nodeMap.ghostIndex n v := by
  obtain ⟨n, hn, hl⟩ := name_of_lt (h.faithful hx) (h.others r x hx) hv
  exact ⟨n, by have := hn.2; omega, hl⟩

theorem Given.name_inj (h : Given per nl gn X xs) {r : Nat} {x : RankB V} (hx : xs[r]? = some x) {v n n' : Nat}
    (h1 : LocalName nl r x.nodeMap.ghostIndex n v) (h2 : LocalName nl r x.nodeMap.ghostIndex n' v) : n = n' := by
  have := Faces.name_inj (h.faithful hx) (by omega) (by omega) (by omega) h1 h2
  omega

theorem Given.own (h : Given per nl gn X xs) {r : Nat} {x : RankB V} (hx : xs[r]? = some x) {v : Nat} (hv : v < x.nNode) :
    Owns nl r ((before nl r + v : Nat) : Int) ∧ LocalName nl r x.nodeMap.ghostIndex ((before nl r + v : Nat) : Int) v := by
  have ho : Owns nl r ((before nl r + v : Nat) : Int) := by
    rw [(h.faithful hx).owns_iff]; have : x.nNode = x.nodeMap.mainSize := rfl; omega
  exact ⟨ho, Or.inl ⟨ho, by omega⟩⟩

/-- the references a node has after the counts came back -/
theorem bndNumbers_spec (h : Given per nl gn X xs) :
    ∃ owns counts, bndNumbers gn xs = .ok (owns, counts) ∧ owns.length = xs.length ∧ counts.length = xs.length ∧
      (∀ r ≤ xs.length, before counts r = rankIn nl xs (before nl r)) ∧
      ∀ (r v : Nat) (own : List Int) (x : RankB V), owns[r]? = some own → xs[r]? = some x → own.length = x.nNode ∧ (v < x.nNode →
        (OnBnd nl xs (before nl r + v) → own[v]? = some (rankIn nl xs (before nl r + v) : Int)) ∧
        (¬ OnBnd nl xs (before nl r + v) → own[v]? = some unInit)) := by
  classical
  obtain ⟨reqs, hm⟩ := h.ok
  have hlk := hm.links
  have hlen := h.len
  -- references
  obtain ⟨cs, hcs, hcl, hc⟩ := forRanks_all (fun _ (x : RankB V) => refBnds (List.replicate x.nProc 0) x.bnds)
    (fun _ (x : RankB V) c => c.length = x.nProc ∧ ∀ v : Nat, v < x.nProc → (c[v]?.getD 0 ≠ 0 ↔ ∃ b ∈ x.bnds, (v : Int) ∈ b.nodes)) xs (by
    intro r x hx
    obtain ⟨c, e, l, s⟩ := refBnds_spec x.bnds (List.replicate x.nProc 0) (by
      intro b hb v hv
      have := h.nodes x (List.mem_of_getElem? hx) b hb v hv
      simpa using this)
    refine ⟨c, e, by simpa using l, ?_⟩
    intro v hv
    rw [s v (by simpa using hv)]
    simp [hv])
  obtain ⟨maps, hmaps⟩ : ∃ maps, xs.map (·.nodeMap) = maps := ⟨_, rfl⟩
  rw [hmaps] at hm hlk
  obtain ⟨sonLens, hsl⟩ : ∃ sonLens, xs.map (fun x => x.nodeMap.ghostIndex.length) = sonLens := ⟨_, rfl⟩
  have hsl' : sonLens = maps.map (fun m => m.ghostIndex.length) := by rw [← hsl, ← hmaps, List.map_map]; rfl
  obtain ⟨gs, hgs⟩ := built_exists sonLens
  obtain ⟨push, hpe⟩ : ∃ push, xs.map (fun x => ((List.range x.nodeMap.ghostIndex.length).map Int.ofNat, x.nodeMap.ghostStart)) = push := ⟨_, rfl⟩
  have hpe' : push = maps.map (fun m => ((List.range m.ghostIndex.length).map Int.ofNat, m.ghostStart)) := by rw [← hpe, ← hmaps, List.map_map]; rfl
  have hsll : sonLens.length = nl.length := by rw [hsl', List.length_map, hlk.len]
  have hpm : ∀ (r : Nat) (p : List Int × List Nat), push[r]? = some p → ∃ m, maps[r]? = some m ∧
      p = ((List.range m.ghostIndex.length).map Int.ofNat, m.ghostStart) := by
    intro r p hp
    rw [hpe', List.getElem?_map] at hp
    obtain ⟨m, hm, rfl⟩ := Option.map_eq_some_iff.1 hp
    exact ⟨m, hm, rfl⟩
  have hst : ∀ p ∈ push, ∃ sizes : List Nat, sizes.length = sonLens.length ∧ p.2 = plainStarts sizes ∧ p.1.length = sizes.sum := by
    intro p hp
    obtain ⟨r, hrl, rfl⟩ := List.mem_iff_getElem.1 hp
    obtain ⟨m, hm, he⟩ := hpm r _ (List.getElem?_eq_getElem hrl)
    rw [he]
    have hgl' := hlk.gsLen hm
    refine ⟨m.ghostSizes, by rw [hgl']; omega, hlk.gst hm, ?_⟩
    have hlast := hlk.start_last hm
    have h1 := hlast.1
    have h2 := hlk.len
    rw [List.getLast?_eq_getElem?, hlast.2, Nat.add_sub_cancel, hlk.gst hm, plainStarts_get _ _ (by omega)] at h1
    simp only [List.length_map, List.length_range]
    rw [← Option.some.inj h1, List.take_of_length_le (by omega)]
  have hz : ∀ p ∈ push, p.2[0]? = some 0 := by
    intro p hp
    obtain ⟨sizes, _, e, _⟩ := hst p hp
    rw [e, plainStarts_get _ _ (by omega)]; simp
  have hpv : PushValid sonLens push := by
    intro r p hp l hl
    obtain ⟨m, hm, rfl⟩ := hpm r p hp
    obtain ⟨j, hj, rfl⟩ := List.mem_map.1 hl
    refine ⟨by simp, m.ghostIndex.length, by rw [hsl', List.getElem?_map, hm]; rfl, ?_⟩
    have := List.mem_range.1 hj
    simp only [Int.ofNat_eq_natCast]; omega
  obtain ⟨maps2, hmaps2⟩ := createPush_total hgs push (by rw [hpe', hsl']; simp) hpv hst
  have hml2 : maps2.length = nl.length := by rw [(pushMaps_links hgs push (by rw [hpe', hsl']; simp) hz hpv maps2 hmaps2).len]; omega
  obtain ⟨sons, hsons⟩ : ∃ sons, (xs.zip cs).map (fun x => x.2.drop x.1.nNode) = sons := ⟨_, rfl⟩
  -- the counts that come back
  have hmx : ∀ {s : Nat} {m : Map}, maps[s]? = some m → ∃ x c, xs[s]? = some x ∧ cs[s]? = some c ∧ m = x.nodeMap ∧ sons[s]? = some (c.drop x.nNode) := by
    intro s m hs
    rw [← hmaps, List.getElem?_map] at hs
    obtain ⟨x, hx, rfl⟩ := Option.map_eq_some_iff.1 hs
    have hsl := (List.getElem?_eq_some_iff.1 hx).1
    have hcx : cs[s]? = some (cs[s]'(by omega)) := by simp
    refine ⟨x, _, hx, hcx, rfl, ?_⟩
    have hzz : (xs.zip cs)[s]? = some (x, cs[s]'(by omega)) := List.getElem?_zip_eq_some.2 ⟨hx, hcx⟩
    rw [← hsons, List.getElem?_map, hzz]; rfl
  let back : Nat → Nat → Nat := fun s j => (sons[s]?.getD [])[j]?.getD 0
  have hback : ∀ (r s j : Nat), r < nl.length → (s, j) ∈ recvd maps r → fetch gs sons ((before sonLens s : Int) + j) = .ok (back s j) := by
    intro r s j hr hmem
    obtain ⟨m, q, h1, h2, _⟩ := (recvd_mem hlk hr s j).1 hmem
    obtain ⟨x, c, hx, hcx, rfl, hso⟩ := hmx h1
    have hj := (List.getElem?_eq_some_iff.1 h2).1
    have hsn : sonLens[s]? = some x.nodeMap.ghostIndex.length := by rw [hsl', List.getElem?_map, h1]; rfl
    obtain ⟨a1, a2⟩ := List.getElem?_eq_some_iff.1 hsn
    have hcl' := (hc s x c hx hcx).1
    have hget : (c.drop x.nNode)[j]? = some (c[x.nNode + j]'(by rw [hcl']; show x.nodeMap.mainSize + j < x.nodeMap.mainSize + _; omega)) := by
      rw [List.getElem?_drop]; simp
    refine fetch_eq hgs (r := s) ⟨a1, by omega, by omega⟩ hso ?_
    rw [show ((before sonLens s : Int) + j - before sonLens s).toNat = j by omega]
    show _ = some ((sons[s]?.getD [])[j]?.getD 0)
    rw [hso, Option.getD_some, hget]; rfl
  -- after they have been added
  obtain ⟨fs, hfs, hfl, hf⟩ := forRanks_all (fun r (x : (RankB V × List Nat) × Map) => (do
      let past ← forRanks (fun _ q => fetch gs sons q) 0 x.2.ghostIndex
      Res.assert (x.1.1.nodeMap.pushingIndexGlobal.length = past.length)
      addPast gn r x.1.2 (x.1.1.nodeMap.pushingIndexGlobal.zip past) : Res (List Nat)))
    (fun r x f => f.length = x.1.1.nProc ∧ ∀ v : Nat, v < x.1.1.nNode → (f[v]?.getD 0 ≠ 0 ↔ OnBnd nl xs (before nl r + v))) ((xs.zip cs).zip maps2) (by
    rintro r ⟨⟨x, c⟩, m2⟩ hr
    obtain ⟨hxc, hm2⟩ := List.getElem?_zip_eq_some.1 hr
    obtain ⟨hx, hcx⟩ := List.getElem?_zip_eq_some.1 hxc
    replace hm2 : maps2[r]? = some m2 := hm2
    replace hx : xs[r]? = some x := hx
    replace hcx : cs[r]? = some c := hcx
    have hmr : maps[r]? = some x.nodeMap := by rw [← hmaps, List.getElem?_map, hx]; rfl
    have hrl : r < nl.length := by rw [← hlen]; exact (List.getElem?_eq_some_iff.1 hx).1
    have e2 := recvd_second hgs hlk hsl' push hpe' hz hmaps2 hm2
    have e1 := recvd_global hm hmr
    have hp : forRanks (fun _ q => fetch gs sons q) 0 m2.ghostIndex = .ok ((recvd maps r).map (fun y => back y.1 y.2)) := by
      refine (forRanks_ok _ _ _ _).2 ⟨by rw [e2]; simp, ?_⟩
      intro i q hq
      rw [e2, List.getElem?_map] at hq
      obtain ⟨⟨s, j⟩, hy, rfl⟩ := Option.map_eq_some_iff.1 hq
      exact ⟨back s j, by rw [List.getElem?_map, hy]; rfl, hback r s j hrl (List.mem_of_getElem? hy)⟩
    have hzip : x.nodeMap.pushingIndexGlobal.zip ((recvd maps r).map (fun y => back y.1 y.2)) =
        (recvd maps r).map (fun y => (ghostOf maps y.1 y.2, back y.1 y.2)) := by
      rw [e1, List.zip_map']
    have hcspec := hc r x c hx hcx
    obtain ⟨f, ef, lf, sf⟩ := addPast_spec h.built r ((recvd maps r).map (fun y => (ghostOf maps y.1 y.2, back y.1 y.2))) c (by
      intro p hp
      obtain ⟨⟨s, j⟩, hy, rfl⟩ := List.mem_map.1 hp
      obtain ⟨m, q, h1, h2, ho⟩ := (recvd_mem hlk hrl s j).1 hy
      simp only
      rw [ghostOf_eq h1 h2]
      refine ⟨ho, ?_⟩
      have := ((h.faithful hx).owns_iff q).1 ho
      rw [hcspec.1]; unfold RankB.nProc; omega)
    refine ⟨f, ?_, by rw [lf]; exact hcspec.1, ?_⟩
    · simp only
      rw [hp, Res.ok_bind, Res.assert_true _ (by rw [e1]; simp), Res.ok_bind, hzip, ef]
    · intro v hv
      simp only at hv ⊢
      have hv' : v < x.nProc := by unfold RankB.nProc; unfold RankB.nNode at hv; omega
      rw [sf v (by rw [hcspec.1]; exact hv'), hcspec.2 v hv']
      obtain ⟨hown, hnm⟩ := h.own hx hv
      constructor
      · rintro (⟨b, hb, hvb⟩ | ⟨p, hp, hpv, hp0⟩)
        · exact ⟨r, x, b, v, hx, hb, hvb, hnm⟩
        · obtain ⟨⟨s, j⟩, hy, rfl⟩ := List.mem_map.1 hp
          obtain ⟨m, q, h1, h2, ho⟩ := (recvd_mem hlk hrl s j).1 hy
          obtain ⟨y, c', hy', hcy, rfl, hso⟩ := hmx h1
          simp only at hpv hp0
          rw [ghostOf_eq h1 h2] at hpv
          have hj := (List.getElem?_eq_some_iff.1 h2).1
          have hb0 : back s j = c'[y.nNode + j]?.getD 0 := by
            show (sons[s]?.getD [])[j]?.getD 0 = _
            rw [hso, Option.getD_some, List.getElem?_drop]
          rw [hb0] at hp0
          obtain ⟨b, hb, hvb⟩ := ((hc s y c' hy' hcy).2 (y.nNode + j) (by unfold RankB.nProc RankB.nNode; omega)).1 hp0
          refine ⟨s, y, b, _, hy', hb, hvb, Or.inr (Or.inl ⟨?_, j, ?_, y.nNode, h.lens hy', by push_cast; rfl⟩)⟩
          · rw [show ((before nl r + v : Nat) : Int) = q by push_cast; omega]
            exact h.others s y hy' q (List.mem_of_getElem? h2)
          · rw [h2]; congr 1; push_cast; omega
      · rintro ⟨s, y, b, u, hy', hb, hub, hnm'⟩
        have hu := h.nodes y (List.mem_of_getElem? hy') b hb u hub
        rcases hnm' with ⟨ho', e'⟩ | ⟨hno', j, hj, n, hn, e'⟩ | ⟨_, _, e'⟩
        · have := owns_unique hown ho'
          subst this
          rw [hx] at hy'; cases hy'
          exact Or.inl ⟨b, hb, by rw [show (v : Int) = u by rw [e']; push_cast; omega]; exact hub⟩
        · right
          have hms : maps[s]? = some y.nodeMap := by rw [← hmaps, List.getElem?_map, hy']; rfl
          obtain ⟨y2, c', hy2, hcy, hme, hso⟩ := hmx hms
          rw [hy'] at hy2; cases hy2
          rw [h.lens hy'] at hn; cases hn
          have hmem := (recvd_mem hlk hrl s j).2 ⟨y.nodeMap, _, hms, hj, hown⟩
          refine ⟨_, List.mem_map.2 ⟨(s, j), hmem, rfl⟩, ?_, ?_⟩
          · simp only; rw [ghostOf_eq hms hj]; push_cast; omega
          · simp only
            have hb0 : back s j = c'[y.nNode + j]?.getD 0 := by
              show (sons[s]?.getD [])[j]?.getD 0 = _
              rw [hso, Option.getD_some, List.getElem?_drop]
            rw [hb0]
            have hjl := (List.getElem?_eq_some_iff.1 hj).1
            exact ((hc s y c' hy' hcy).2 (y.nNode + j) (by unfold RankB.nProc RankB.nNode; omega)).2 ⟨b, hb, by
              rw [show ((y.nNode + j : Nat) : Int) = u by rw [e']; push_cast; rfl]; exact hub⟩
        · omega)
  have hfl' : fs.length = xs.length := by rw [hfl, List.length_zip, List.length_zip]; omega
  have hf' : ∀ (r : Nat) (x : RankB V), xs[r]? = some x → ∃ f, fs[r]? = some f ∧ f.length = x.nProc ∧
      ∀ v : Nat, v < x.nNode → (f[v]?.getD 0 ≠ 0 ↔ OnBnd nl xs (before nl r + v)) := by
    intro r x hx
    have hrl := (List.getElem?_eq_some_iff.1 hx).1
    have hcx : cs[r]? = some (cs[r]'(by omega)) := by simp
    have hm2 : maps2[r]? = some (maps2[r]'(by omega)) := by simp
    have hfr : fs[r]? = some (fs[r]'(by omega)) := by simp
    have h1 : (xs.zip cs)[r]? = some (x, cs[r]'(by omega)) := List.getElem?_zip_eq_some.2 ⟨hx, hcx⟩
    have h2 : ((xs.zip cs).zip maps2)[r]? = some ((x, cs[r]'(by omega)), maps2[r]'(by omega)) := List.getElem?_zip_eq_some.2 ⟨h1, hm2⟩
    exact ⟨_, hfr, hf r _ _ h2 hfr⟩
  -- local numbers
  obtain ⟨ns, hns⟩ : ∃ ns, (xs.zip fs).map (fun x => numberOwn 0 (x.2.take x.1.nNode)) = ns := ⟨_, rfl⟩
  have hnl : ns.length = xs.length := by rw [← hns, List.length_map, List.length_zip]; omega
  have hn : ∀ (r : Nat) (x : RankB V), xs[r]? = some x → ∃ n : List Int × Nat, ns[r]? = some n ∧ n.1.length = x.nNode ∧
      n.2 = Nat.count (fun k => OnBnd nl xs (before nl r + k)) x.nNode ∧ ∀ v : Nat, v < x.nNode →
        n.1[v]? = some (if OnBnd nl xs (before nl r + v) then (Nat.count (fun k => OnBnd nl xs (before nl r + k)) v : Int) else unInit) := by
    intro r x hx
    obtain ⟨f, hfr, hfl, hfv⟩ := hf' r x hx
    have hzr : (xs.zip fs)[r]? = some (x, f) := List.getElem?_zip_eq_some.2 ⟨hx, hfr⟩
    refine ⟨numberOwn 0 (f.take x.nNode), by rw [← hns, List.getElem?_map, hzr]; rfl, ?_⟩
    obtain ⟨s1, s2, s3⟩ := numberOwn_spec (f.take x.nNode) 0
    have htl : (f.take x.nNode).length = x.nNode := by
      rw [List.length_take, hfl]; unfold RankB.nProc RankB.nNode; omega
    have hcond : ∀ (k n : Nat), (f.take x.nNode)[k]? = some n → (n ≠ 0 ↔ OnBnd nl xs (before nl r + k)) := by
      intro k n hk
      have hkl := (List.getElem?_eq_some_iff.1 hk).1
      rw [htl] at hkl
      rw [List.getElem?_take, if_pos hkl] at hk
      have := hfv k hkl
      rwa [hk] at this
    refine ⟨by rw [s1, htl], ?_, ?_⟩
    · rw [s2, Nat.zero_add, ← countP_eq_count (OnBnd nl xs) _ (before nl r) x.nNode (by omega) hcond, List.take_take, Nat.min_self]
    · intro v hv
      have hvg : (f.take x.nNode)[v]? = some ((f.take x.nNode)[v]'(by omega)) := List.getElem?_eq_getElem _
      rw [s3 v _ hvg, Nat.zero_add, countP_eq_count (OnBnd nl xs) _ (before nl r) v (by omega) hcond]
      have := hcond v _ hvg
      by_cases hon : OnBnd nl xs (before nl r + v)
      · rw [if_pos hon, if_neg (this.2 hon)]
      · rw [if_neg hon, if_pos (by by_contra hc; exact hon (this.1 hc))]
  obtain ⟨counts, hcounts⟩ : ∃ counts, ns.map (·.2) = counts := ⟨_, rfl⟩
  have hcl2 : counts.length = xs.length := by rw [← hcounts, List.length_map, hnl]
  have hbef : ∀ r ≤ xs.length, before counts r = rankIn nl xs (before nl r) := by
    intro r
    induction r with
    | zero => intro _; simp [before, rankIn]
    | succ r ih =>
      intro hr
      obtain ⟨n, hnr, _, hn2, _⟩ := hn r (xs[r]'(by omega)) (by simp)
      rw [before_succ counts r (by omega), ih (by omega), before_succ nl r (by omega)]
      have hcr : counts[r]? = some n.2 := by rw [← hcounts, List.getElem?_map, hnr]; rfl
      rw [(List.getElem?_eq_some_iff.1 hcr).2, hn2]
      have := h.lens (r := r) (x := xs[r]'(by omega)) (by simp)
      rw [(List.getElem?_eq_some_iff.1 this).2]
      unfold rankIn
      rw [Nat.count_add]
  -- global numbers
  obtain ⟨owns, howns, hol, ho⟩ := forRanks_all (fun r (n : List Int × Nat) => (do
      let start : Int := ((counts.take (r + 1)).sum : Int) - n.2
      Res.assert (start ≥ 0)
      .ok (n.1.map (shift start)) : Res (List Int)))
    (fun r n own => own = n.1.map (shift (rankIn nl xs (before nl r)))) ns (by
    intro r n hr
    have hrl := (List.getElem?_eq_some_iff.1 hr).1
    have hcr : counts[r]? = some n.2 := by rw [← hcounts, List.getElem?_map, hr]; rfl
    have hst : ((counts.take (r + 1)).sum : Int) - n.2 = rankIn nl xs (before nl r) := by
      rw [← hbef r (by omega)]
      have := before_succ counts r (by omega)
      rw [(List.getElem?_eq_some_iff.1 hcr).2] at this
      unfold before at this ⊢
      omega
    simp only
    rw [hst, Res.assert_true _ (by omega)]
    exact ⟨_, rfl, rfl⟩)
  refine ⟨owns, counts, ?_, by omega, hcl2, hbef, ?_⟩
  · unfold Built at hgs
    rw [bndNumbers, hcs, Res.ok_bind]
    simp only [hsl, hpe, hsons]
    rw [hgs, Res.ok_bind, hmaps2, Res.ok_bind, hfs, Res.ok_bind]
    simp only [hns, hcounts]
    rw [howns]; rfl
  · intro r v own x hor hx
    obtain ⟨n, hnr, hnl1, hn2, hn3⟩ := hn r x hx
    rw [ho r n own hnr hor]
    refine ⟨by simp [hnl1], ?_⟩
    intro hv
    rw [List.getElem?_map, hn3 v hv]
    constructor
    · intro hon
      rw [if_pos hon, Option.map_some, shift, if_pos (by omega)]
      unfold rankIn
      rw [Nat.count_add]
      push_cast
      rw [Int.add_comm]
    · intro hon
      rw [if_neg hon]
      rfl

end given

end DNDSR.Bnd
