import Verif.Proof.BndMeshRun
import Verif.Proof.FaceZonesRank
import Verif.Props.FaceZones

/-!
# C93: the boundary mesh is the boundary of the whole mesh

`boundary_mesh`: building the boundary mesh never stops; its nodes are the nodes of the boundary elements of all ranks, each
once, numbered in the order they have in the mesh and owned by the ranks that own them there.  On every rank the maps between
nodes of the two meshes are inverse to each other and lead to the same node of the whole mesh, the coordinates are those of
the mesh, and there is one cell for every boundary element that is not periodic, with its zone and its nodes.
-/

namespace DNDSR.Bnd

open DNDSR.Elem DNDSR.IMap DNDSR.Faces DNDSR.MeshAdj DNDSR.N2C DNDSR.Tran
open DNDSR.Per (isPeriodic)

variable {V : Type}

/-- **C93.** -/
theorem boundary_mesh {per : Bool} {nl : List Nat} {gn : GOM} {X : Nat → V} {xs : List (RankB V)} (h : Given per nl gn X xs) :
    ∃ outs, constructBnd per gn xs = .ok outs ∧ Made per nl X xs outs := by
  classical
  obtain ⟨owns, counts, hnum, hol, hcl, hbef, _⟩ := bndNumbers_spec h
  obtain ⟨alls, halls, hal, hall⟩ := all_spec h hnum
  have hlen := h.len
  have hcl' : counts.length = nl.length := by omega
  have hbef' : ∀ r ≤ nl.length, before counts r = rankIn nl xs (before nl r) := fun r hr => hbef r (by omega)
  have etot : counts.sum = rankIn nl xs nl.sum := by
    have e1 : counts.sum = before counts nl.length := by rw [← hcl']; simp [before]
    have e2 : nl.sum = before nl nl.length := by simp [before]
    rw [e1, hbef' _ (le_refl _), ← e2]
  have howner : ∀ (r n : Nat), OnBnd nl xs n → (Owns counts r (rankIn nl xs n) ↔ Owns nl r n) := fun r n hn => owns_rank hcl' hbef' hn
  obtain ⟨gb, hgb⟩ := built_exists counts
  -- what the ranks ask for
  have hrange : ∀ (r : Nat) (x : RankB V) (all : List Int), xs[r]? = some x → alls[r]? = some all → ∀ v ∈ all, 0 ≤ v → v < counts.sum := by
    intro r x all hx ha v hv hv0
    obtain ⟨k, hk⟩ := List.mem_iff_getElem?.1 hv
    obtain ⟨l1, l2⟩ := hall r x all hx ha
    have hkl := (List.getElem?_eq_some_iff.1 hk).1
    obtain ⟨n, hn, hnm⟩ := h.name hx (v := k) (by omega)
    have e := l2 n k hnm
    rw [hk] at e
    have e' := Option.some.inj e
    have hon := val_nonneg (nl := nl) (xs := xs) (n := n) (by omega)
    rw [val_on hon] at e'
    have := count_lt (OnBnd nl xs) hon hn
    rw [etot]
    unfold rankIn at e' ⊢
    omega
  obtain ⟨sets, hsets, hsl, hset⟩ := forRanks_all (fun r vs => pullSet gb r vs)
    (fun r all s => s = all.filter (fun v => 0 ≤ v ∧ ¬ Owns counts r v)) alls (by
    intro r all ha
    have hrl := (List.getElem?_eq_some_iff.1 ha).1
    exact ⟨_, pullSet_eq hgb r all (hrange r (xs[r]'(by omega)) all (by simp) ha), rfl⟩)
  have hreq : ∀ (r : Nat) (x : RankB V), xs[r]? = some x → ∃ all s, alls[r]? = some all ∧ sets[r]? = some s ∧ all.length = x.nProc ∧
      (∀ n v : Nat, LocalName nl r x.nodeMap.ghostIndex n v → all[v]? = some (val nl xs n)) ∧
      (∀ q, q ∈ s ↔ q ∈ all ∧ 0 ≤ q ∧ ¬ Owns counts r q) ∧ s.length ≤ x.nodeMap.ghostIndex.length := by
    intro r x hx
    have hrl := (List.getElem?_eq_some_iff.1 hx).1
    have ha : alls[r]? = some (alls[r]'(by omega)) := by simp
    have hs : sets[r]? = some (sets[r]'(by omega)) := by simp
    obtain ⟨all, hae⟩ : ∃ all, alls[r]'(by omega) = all := ⟨_, rfl⟩
    rw [hae] at ha
    obtain ⟨l1, l2⟩ := hall r x all hx ha
    have e := hset r all _ ha hs
    refine ⟨all, _, ha, hs, l1, l2, ?_, ?_⟩
    · intro q; rw [e, List.mem_filter]; simp only [decide_eq_true_eq]
    · rw [e]
      conv_lhs => rw [← List.take_append_drop x.nNode all]
      rw [List.filter_append]
      have h1 : (all.take x.nNode).filter (fun v => 0 ≤ v ∧ ¬ Owns counts r v) = [] := by
        rw [List.filter_eq_nil_iff]
        intro v hv
        simp only [decide_eq_true_eq, not_and, not_not]
        intro hv0
        obtain ⟨k, hk⟩ := List.mem_iff_getElem?.1 hv
        have hkl := (List.getElem?_eq_some_iff.1 hk).1
        rw [List.length_take] at hkl
        rw [List.getElem?_take, if_pos (by omega)] at hk
        obtain ⟨ho, hnm⟩ := h.own hx (v := k) (by omega)
        have e := l2 _ k hnm
        rw [hk] at e
        have e' := Option.some.inj e
        have hon := val_nonneg (nl := nl) (xs := xs) (n := before nl r + k) (by omega)
        rw [val_on hon] at e'
        rw [e', howner r _ hon]
        exact ho
      rw [h1, List.nil_append]
      refine (List.length_filter_le _ _).trans ?_
      rw [List.length_drop, l1]
      unfold RankB.nProc RankB.nNode; omega
  have hsl' : sets.length = xs.length := by omega
  obtain ⟨maps, hmaps⟩ := ghost_map_exists hgb sets (by omega) (by
    intro req hreq' q hq
    obtain ⟨r, hr⟩ := List.mem_iff_getElem?.1 hreq'
    have hrl := (List.getElem?_eq_some_iff.1 hr).1
    obtain ⟨all, s, ha, hs, _, _, hm, _⟩ := hreq r (xs[r]'(by omega)) (by simp)
    rw [hr] at hs; cases hs
    have := (hm q).1 hq
    exact ⟨this.2.1, hrange r (xs[r]'(by omega)) all (by simp) ha q this.1 this.2.1⟩) (by
    refine le_trans ?_ h.small
    have key : ∀ (ys : List (RankB V)) (ss : List (List Int)), ss.length = ys.length →
        (∀ (r : Nat) (y : RankB V) (s : List Int), ys[r]? = some y → ss[r]? = some s → s.length ≤ y.nodeMap.ghostIndex.length) →
        (ss.map List.length).sum ≤ (ys.map (fun y => y.nodeMap.ghostIndex.length)).sum := by
      intro ys
      induction ys with
      | nil => intro ss hl _; rw [List.length_nil, List.length_eq_zero_iff] at hl; subst hl; simp
      | cons y ys ih =>
        intro ss hl hh
        cases ss with
        | nil => simp at hl
        | cons s ss =>
          have h1 := hh 0 y s rfl rfl
          have h2 := ih ss (by simpa using hl) (fun r y' s' a b => hh (r + 1) y' s' (by simpa using a) (by simpa using b))
          simp only [List.map_cons, List.sum_cons]
          omega
    have := key xs sets hsl' (by
      intro r y s hy hs
      obtain ⟨all, s', _, hs', _, _, _, hle⟩ := hreq r y hy
      rw [hs] at hs'; cases hs'
      exact hle)
    exact Int.ofNat_le.2 this)
  obtain ⟨hml, hmok⟩ := createPull_spec hgb sets (by omega) maps hmaps
  -- the nodes on every rank
  have hrank : ∀ (r : Nat) (x : RankB V), xs[r]? = some x → ∃ all m, alls[r]? = some all ∧ maps[r]? = some m ∧ Faithful counts r m ∧
      ∃ o, nodesOf x all m = .ok o ∧ o.map = m ∧ NodesOk nl counts X xs r x o := by
    intro r x hx
    have hrl := (List.getElem?_eq_some_iff.1 hx).1
    obtain ⟨all, s, ha, hs, l1, l2, hm, _⟩ := hreq r x hx
    have hmr : maps[r]? = some (maps[r]'(by omega)) := by simp
    have hok := hmok r _ hmr
    have hf : Faithful counts r (maps[r]'(by omega)) := .of_pull hok
    refine ⟨all, _, ha, hmr, hf, nodesOf_spec h hcl' hbef' hx l1 l2 hf ?_⟩
    intro q
    obtain ⟨req, hr1, hr2⟩ := hok.req
    rw [hs] at hr1; cases hr1
    rw [← hm q]
    have : (maps[r]'(by omega)).ghostIndex = unique (sortIdx s) := hr2.gi
    rw [this]
    exact (pulling_spec s).2 q
  obtain ⟨pre, hpre, hpl, hp⟩ := forRanks_all (fun (_ : Nat) (x : (RankB V × List Int) × Map) => nodesOf x.1.1 x.1.2 x.2)
    (fun r x o => o.map = x.2 ∧ Faithful counts r x.2 ∧ NodesOk nl counts X xs r x.1.1 o) ((xs.zip alls).zip maps) (by
    rintro r ⟨⟨x, all⟩, m⟩ hr
    obtain ⟨hxc, hm⟩ := List.getElem?_zip_eq_some.1 hr
    obtain ⟨hx, ha⟩ := List.getElem?_zip_eq_some.1 hxc
    obtain ⟨all', m', ha', hm', hf, o, ho⟩ := hrank r x hx
    replace ha : alls[r]? = some all := ha
    replace hm : maps[r]? = some m := hm
    rw [ha] at ha'; cases ha'
    rw [hm] at hm'; cases hm'
    exact ⟨o, ho.1, ho.2.1, hf, ho.2.2⟩)
  have hpl' : pre.length = xs.length := by rw [hpl, List.length_zip, List.length_zip]; omega
  have hp' : ∀ (r : Nat) (x : RankB V) (o : OutB V), xs[r]? = some x → pre[r]? = some o → maps[r]? = some o.map ∧ Faithful counts r o.map ∧ NodesOk nl counts X xs r x o := by
    intro r x o hx ho
    have hrl := (List.getElem?_eq_some_iff.1 hx).1
    have ha : alls[r]? = some (alls[r]'(by omega)) := by simp
    have hm : maps[r]? = some (maps[r]'(by omega)) := by simp
    have h1 : (xs.zip alls)[r]? = some (x, alls[r]'(by omega)) := List.getElem?_zip_eq_some.2 ⟨hx, ha⟩
    have h2 : ((xs.zip alls).zip maps)[r]? = some ((x, alls[r]'(by omega)), maps[r]'(by omega)) := List.getElem?_zip_eq_some.2 ⟨h1, hm⟩
    obtain ⟨a1, a2, a3⟩ := hp r _ o h2 ho
    rw [a1]
    exact ⟨hm, a2, a3⟩
  obtain ⟨fathers, hfa⟩ : ∃ fathers, pre.map (fun o => o.coords.take o.map.mainSize) = fathers := ⟨_, rfl⟩
  -- the ghost coordinates
  have hghost : ∀ (r : Nat) (x : RankB V) (o : OutB V), xs[r]? = some x → pre[r]? = some o → ∃ son,
      forRanks (fun _ q => fetch gb fathers q) 0 o.map.ghostIndex = .ok son ∧ son.length = o.map.ghostIndex.length ∧
      ∀ (k n : Nat), OnBnd nl xs n → o.map.ghostIndex[k]? = some (rankIn nl xs n : Int) → son[k]? = some (X n) := by
    intro r x o hx ho
    obtain ⟨_, hf, hok⟩ := hp' r x o hx ho
    obtain ⟨son, e, l, s⟩ := forRanks_all (fun (_ : Nat) q => fetch gb fathers q)
      (fun _ (q : Int) y => ∀ n : Nat, OnBnd nl xs n → q = (rankIn nl xs n : Int) → y = X n) o.map.ghostIndex (by
      intro k q hq
      obtain ⟨q0, q1⟩ := hf.loc.range q (List.mem_of_getElem? hq)
      obtain ⟨s, hs⟩ := owns_exists q0 q1
      have hsl := hs.1
      have hxs : xs[s]? = some (xs[s]'(by omega)) := by simp
      have hps : pre[s]? = some (pre[s]'(by omega)) := by simp
      obtain ⟨os, hose⟩ : ∃ os, pre[s]'(by omega) = os := ⟨_, rfl⟩
      rw [hose] at hps
      obtain ⟨_, hfs, hoks⟩ := hp' s _ os hxs hps
      have hs' := (hfs.owns_iff q).1 hs
      obtain ⟨n, hn1, hn2, hn3⟩ := count_surj (OnBnd nl xs) q.toNat nl.sum (by
        have : (q.toNat : Int) = q := by omega
        rw [etot] at q1; unfold rankIn at q1; omega)
      have hn3' : rankIn nl xs n = q.toNat := hn3
      have hc := hoks.coords n (q - before counts s).toNat hn2 (Or.inl ⟨by rw [hn3', Int.toNat_of_nonneg q0]; exact hs, by rw [hn3', Int.toNat_of_nonneg q0]; omega⟩)
      refine ⟨X n, fetch_eq hgb hs (own := os.coords.take os.map.mainSize) (by rw [← hfa, List.getElem?_map, hps]; rfl) ?_, ?_⟩
      · rw [List.getElem?_take, if_pos (by omega)]; exact hc
      · intro n' hn' e'
        rw [rankIn_inj hn2 hn' (by omega)])
    refine ⟨son, e, l, ?_⟩
    intro k n hn hk
    have hkl := (List.getElem?_eq_some_iff.1 hk).1
    have hg : son[k]? = some (son[k]'(by omega)) := by simp
    rw [hg, s k _ _ hk hg n hn rfl]
  obtain ⟨outs, houts, holen, hout⟩ := forRanks_all (fun (_ : Nat) (x : RankB V × OutB V) => (do
      let son ← forRanks (fun _ q => fetch gb fathers q) 0 x.2.map.ghostIndex
      let cells ← bndCells per x.1 x.2.node2bnd 0 x.1.bnds
      .ok ⟨x.2.map, x.2.coords.take x.2.map.mainSize ++ son, x.2.node2bnd, x.2.parents, cells⟩ : Res (OutB V)))
    (fun r x o => ∃ son cells, o = ⟨x.2.map, x.2.coords.take x.2.map.mainSize ++ son, x.2.node2bnd, x.2.parents, cells⟩ ∧
      son.length = x.2.map.ghostIndex.length ∧
      (∀ (k n : Nat), OnBnd nl xs n → x.2.map.ghostIndex[k]? = some (rankIn nl xs n : Int) → son[k]? = some (X n)) ∧
      cells.map (·.parent) = (List.range x.1.bnds.length).filter (fun k => (x.1.bnds[k]?.map fun b => !isPeriodic b.info.zone).getD false) ∧
      ∀ c ∈ cells, CellOf per nl counts xs r x.1 o c) (xs.zip pre) (by
    rintro r ⟨x, o⟩ hr
    obtain ⟨hx, ho⟩ := List.getElem?_zip_eq_some.1 hr
    replace hx : xs[r]? = some x := hx
    replace ho : pre[r]? = some o := ho
    obtain ⟨_, hf, hok⟩ := hp' r x o hx ho
    obtain ⟨son, es, ls, ss⟩ := hghost r x o hx ho
    obtain ⟨cells, ec, hc1, hc2⟩ := bndCells_spec per x o.node2bnd (fun c => ∀ o' : OutB V, o'.map = o.map → CellOf per nl counts xs r x o' c) x.bnds 0 (by
      intro i b hb hz
      obtain ⟨c, e, hcp, _⟩ := bndCell_spec h hx hok hb hz o rfl
      refine ⟨c, by rw [Nat.zero_add]; exact e, by omega, ?_⟩
      intro o' ho'
      obtain ⟨c', e', _, hc'⟩ := bndCell_spec h hx hok hb hz o' ho'
      rw [e] at e'; cases e'
      exact hc')
    refine ⟨_, ?_, son, cells, rfl, ls, ss, ?_, fun c hc => hc1 c hc _ rfl⟩
    · simp only
      rw [es, Res.ok_bind, ec]; rfl
    · rw [hc2]
      simp only
      conv_rhs => rw [← List.map_id ((List.range x.bnds.length).filter _)]
      apply List.map_congr_left
      intro i _
      simp)
  have holen' : outs.length = xs.length := by rw [holen, List.length_zip]; omega
  have hall' : ∀ (r : Nat) (x : RankB V) (o : OutB V), xs[r]? = some x → outs[r]? = some o → ∃ p son, pre[r]? = some p ∧ o.map = p.map ∧
      o.node2bnd = p.node2bnd ∧ o.parents = p.parents ∧ o.coords = p.coords.take p.map.mainSize ++ son ∧ son.length = p.map.ghostIndex.length ∧
      (∀ (k n : Nat), OnBnd nl xs n → p.map.ghostIndex[k]? = some (rankIn nl xs n : Int) → son[k]? = some (X n)) ∧
      maps[r]? = some p.map ∧ Faithful counts r p.map ∧ NodesOk nl counts X xs r x p ∧
      o.cells.map (·.parent) = (List.range x.bnds.length).filter (fun k => (x.bnds[k]?.map fun b => !isPeriodic b.info.zone).getD false) ∧
      ∀ c ∈ o.cells, CellOf per nl counts xs r x o c := by
    intro r x o hx ho
    have hrl := (List.getElem?_eq_some_iff.1 hx).1
    have hps : pre[r]? = some (pre[r]'(by omega)) := by simp
    have h1 : (xs.zip pre)[r]? = some (x, pre[r]'(by omega)) := List.getElem?_zip_eq_some.2 ⟨hx, hps⟩
    obtain ⟨son, cells, e, a1, a2, a3, a4⟩ := hout r _ o h1 ho
    obtain ⟨b1, b2, b3⟩ := hp' r x _ hx hps
    subst e
    exact ⟨_, son, hps, rfl, rfl, rfl, rfl, a1, a2, b1, b2, b3, a3, a4⟩
  have hxo : ∀ {r : Nat} {o : OutB V}, outs[r]? = some o → ∃ x, xs[r]? = some x := by
    intro r o ho
    have := (List.getElem?_eq_some_iff.1 ho).1
    exact ⟨xs[r]'(by omega), by simp⟩
  have hlB : lensB outs = counts := by
    apply List.ext_getElem?
    intro r
    rw [lensB, List.getElem?_map]
    by_cases hr : r < xs.length
    · have hor : outs[r]? = some (outs[r]'(by omega)) := by simp
      obtain ⟨p, son, _, e, _, _, _, _, _, _, hf, _⟩ := hall' r (xs[r]) _ (by simp) hor
      rw [hor, Option.map_some, e, hf.size]
    · rw [List.getElem?_eq_none (by omega), List.getElem?_eq_none (by omega)]; rfl
  refine ⟨outs, ?_, ?_⟩
  · unfold Built at hgb
    rw [constructBnd, hnum, Res.ok_bind]
    simp only
    rw [halls, Res.ok_bind, hgb, Res.ok_bind, hsets, Res.ok_bind, hmaps, Res.ok_bind, hpre, Res.ok_bind]
    simp only [hfa]
    exact houts
  · refine ⟨holen', by rw [hlB, etot], by rw [hlB]; exact howner, ?_, ?_, ?_, ?_, ?_, ?_, ?_, ?_⟩
    · intro r o ho
      obtain ⟨x, hx⟩ := hxo ho
      obtain ⟨p, son, _, e, _, _, _, _, _, hm, _⟩ := hall' r x o hx ho
      rw [hlB, e]
      exact .pull gb sets maps hgb (by omega) hmaps hm
    · intro r x o n v hx ho hnm hon
      obtain ⟨p, son, _, e1, e2, _, _, _, _, _, _, hok, _⟩ := hall' r x o hx ho
      rw [hlB, e1, e2]
      exact hok.bound n v hnm hon
    · intro r x o n v hx ho hnm hon
      obtain ⟨p, son, _, e1, e2, _, _, _, _, _, _, hok, _⟩ := hall' r x o hx ho
      rw [e2]
      exact hok.inner n v hnm hon
    · intro r x o hx ho
      obtain ⟨p, son, _, e1, e2, e3, e4, e5, _, _, _, hok, _⟩ := hall' r x o hx ho
      refine ⟨by rw [e2]; exact hok.len1, by rw [e1, e3]; exact hok.len2, ?_⟩
      rw [e4, e1, List.length_append, List.length_take, hok.len3, e5]; omega
    · intro r o v w ho
      obtain ⟨x, hx⟩ := hxo ho
      obtain ⟨p, son, _, e1, e2, e3, _, _, _, _, _, hok, _⟩ := hall' r x o hx ho
      rw [e2, e3]
      exact hok.parent v w
    · intro r o w ho hw
      obtain ⟨x, hx⟩ := hxo ho
      obtain ⟨p, son, _, e1, e2, e3, _, _, _, _, _, hok, _⟩ := hall' r x o hx ho
      rw [e3] at hw ⊢
      exact hok.parented w hw
    · intro r o n w ho hon hnm
      obtain ⟨x, hx⟩ := hxo ho
      obtain ⟨p, son, _, e1, e2, e3, e4, e5, hs, _, hf, hok, _⟩ := hall' r x o hx ho
      rw [hlB, e1] at hnm
      rw [e4]
      rcases id hnm with ⟨ho', e⟩ | ⟨ho', k, hk, m, hm, e⟩ | ⟨_, _, e⟩
      · have := (hf.owns_iff _).1 ho'
        rw [List.getElem?_append_left (by rw [List.length_take, hok.len3]; omega), List.getElem?_take, if_pos (by omega)]
        exact hok.coords n w hon hnm
      · rw [hf.size] at hm; cases hm
        rw [List.getElem?_append_right (by rw [List.length_take, hok.len3]; omega), List.length_take, hok.len3,
          show w - min p.map.mainSize (p.map.mainSize + p.map.ghostIndex.length) = k by omega]
        exact hs k n hon hk
      · omega
    · intro r x o hx ho
      obtain ⟨p, son, _, _, _, _, _, _, _, _, _, _, a, b⟩ := hall' r x o hx ho
      rw [hlB]
      exact ⟨a, b⟩

/-! ### together with the faces -/

section faces

variable {per : Bool} {cl nl : List Nat} {G : List Cell} {gc gn : GOM} {ranks : List RankIn} {bnds : List (List BndRow)} {Z : Nat → Nat → Option Info}
  {outs : List RankOut} {F : Nat → Nat → Int} {zs : List ZSt} {X : Nat → V} {xs : List (RankB V)}

theorem Assembled.at (hA : Assembled ranks bnds outs zs xs) (hB : Bounded per cl nl G ranks bnds Z) (hN : Numbered per cl nl G ranks outs F)
    (hZ : Zoned per cl nl G ranks bnds Z outs F zs) {r : Nat} (hr : r < ranks.length) : ∃ y x bs o z, xs[r]? = some y ∧ ranks[r]? = some x ∧
      bnds[r]? = some bs ∧ outs[r]? = some o ∧ zs[r]? = some z ∧ y.nodeMap = x.nodeMap ∧ y.bnds = bs ∧ y.bnd2face = z.bnd2face ∧ y.faces = o.faces := by
  have h1 := hA.size
  have h2 := hB.nranks
  have h3 := hN.size
  have h4 := hZ.size
  have a1 : xs[r]? = some (xs[r]'(by omega)) := by simp
  have a2 : ranks[r]? = some (ranks[r]'(by omega)) := by simp
  have a3 : bnds[r]? = some (bnds[r]'(by omega)) := by simp
  have a4 : outs[r]? = some (outs[r]'(by omega)) := by simp
  have a5 : zs[r]? = some (zs[r]'(by omega)) := by simp
  exact ⟨_, _, _, _, _, a1, a2, a3, a4, a5, hA.same r _ _ _ _ _ a1 a2 a3 a4 a5⟩

/-- the face of an element that is not periodic -/
theorem face_of (hD : Distributed per cl nl G gc ranks) (hB : Bounded per cl nl G ranks bnds Z) (hN : Numbered per cl nl G ranks outs F)
    (hZ : Zoned per cl nl G ranks bnds Z outs F zs) {r : Nat} {x : RankIn} {bs : List BndRow} {o : RankOut} {z : ZSt} (hx : ranks[r]? = some x)
    (hbs : bnds[r]? = some bs) (ho : outs[r]? = some o) (hz : zs[r]? = some z) {k : Nat} {b : BndRow} (hb : bs[k]? = some b)
    (hper : isPeriodic b.info.zone = false) :
    ∃ (v i j : Nat) (f : Face) (a : Slot), z.bnd2face[k]? = some (v : Int) ∧ o.faces[v]? = some f ∧ IsSlot per G i j a ∧ Z i j = some b.info ∧
      LocalSlot nl r x.nodeMap.ghostIndex a f.slot ∧ f.slot.nodes.Perm b.nodes := by
  obtain ⟨v, h1, h2⟩ := hZ.inverse r x z bs k b hx hz hbs hb hper
  have hvl := (List.getElem?_eq_some_iff.1 h2).1
  rw [(hZ.sizes r o z ho hz).2] at hvl
  have hfl := (hN.maps r o ho).2
  have hf : o.faces[v]? = some (o.faces[v]'(by omega)) := by simp
  obtain ⟨l, i, j, a, e1, e2, e3, e4, e5, _⟩ := hN.faces r x o v _ hx ho hf
  rcases hZ.face2bnd r x o z bs v l i j _ a hx ho hz hbs hf hvl e1 e2 e3 e4 with ⟨_, hn⟩ | ⟨k', b', hk, hb', hs⟩
  · rw [h2] at hn; cases hn
  · rw [h2] at hk
    have hkk : k = k' := Option.some.inj (Option.some.inj hk)
    subst hkk
    rw [hb] at hb'; cases hb'
    obtain ⟨i', j', _, hs', hZij⟩ := hB.sits r x bs k b hx hbs hb
    obtain ⟨rfl, rfl⟩ := sits_unique hD hx hs hs'
    refine ⟨v, i, j, _, a, h1, hf, e3, hZij, e5, ?_⟩
    obtain ⟨l', a', s, f1, f2, f3, f4, f5⟩ := hs
    have := slot_unique f3 e3
    subst this
    rw [localSlot_nodes hD hx e2 e3 e5, ← localSlot_nodes hD hx f2 f3 f4]
    exact f5.symm

theorem given_of (hD : Distributed per cl nl G gc ranks) (hB : Bounded per cl nl G ranks bnds Z) (hN : Numbered per cl nl G ranks outs F)
    (hZ : Zoned per cl nl G ranks bnds Z outs F zs)
    (hA : Assembled ranks bnds outs zs xs) (hn : Nodes nl gn X xs) : Given per nl gn X xs := by
  refine ⟨hn.built, hn.maps, hn.others, hn.small, hn.size, hn.coords, ?_, ?_⟩
  · intro y hy b hb v hv
    obtain ⟨r, hr⟩ := List.mem_iff_getElem?.1 hy
    have hrl := (List.getElem?_eq_some_iff.1 hr).1
    obtain ⟨y', x, bs, o, z, a1, a2, a3, a4, a5, e1, e2, e3, e4⟩ := hA.at hB hN hZ (r := r) (by rw [← hA.size]; exact hrl)
    rw [hr] at a1; cases a1
    subst e2
    obtain ⟨k, hk⟩ := List.mem_iff_getElem?.1 hb
    obtain ⟨i, j, _, ⟨l, a, s, f1, f2, f3, f4, f5⟩, _⟩ := hB.sits r x _ k b a2 a3 hk
    rw [localSlot_nodes hD a2 f2 f3 f4] at f5
    obtain ⟨n, hna, rfl⟩ := List.mem_map.1 (f5.mem_iff.1 hv)
    obtain ⟨g1, g2, g3⟩ := slot_nodes hD a2 f2 f3 n hna
    refine ⟨g2, ?_⟩
    have := name_lt (hD.holds r x a2).nodeMap.faithful g2 g3 g1
    rw [RankB.nProc, e1]; push_cast; exact this
  · intro y hy
    obtain ⟨r, hr⟩ := List.mem_iff_getElem?.1 hy
    have hrl := (List.getElem?_eq_some_iff.1 hr).1
    obtain ⟨y', x, bs, o, z, a1, a2, a3, a4, a5, e1, e2, e3, e4⟩ := hA.at hB hN hZ (r := r) (by rw [← hA.size]; exact hrl)
    rw [hr] at a1; cases a1
    rw [e2, e3, e4]
    refine ⟨hZ.entries r z bs a5 a3, ?_⟩
    intro k b q hb hq hq0 hper
    obtain ⟨v, i, j, f, a, g1, g2, g3, _, g4, g5⟩ := face_of hD hB hN hZ a2 a3 a4 a5 hb hper
    rw [hq] at g1
    have := Option.some.inj g1
    refine ⟨f, by rw [this, Int.toNat_natCast]; exact g2, g5, ?_⟩
    intro hp
    rw [g4.pbi, g4.len]
    exact (slot_fine hD g3).bits hp

/-- **C93, with C71 and C92.**  Built after the faces, the boundary mesh has the nodes of the sides of the whole mesh that have a
boundary element, and its cells are these sides, whatever the partition and the order of the elements: each has the zone of
its element and the nodes and periodic bits of its side, in the order of the side. -/
theorem boundary_sides (hD : Distributed per cl nl G gc ranks) (hB : Bounded per cl nl G ranks bnds Z) (hN : Numbered per cl nl G ranks outs F)
    (hZ : Zoned per cl nl G ranks bnds Z outs F zs)
    (hA : Assembled ranks bnds outs zs xs) (hn : Nodes nl gn X xs) :
    ∃ bms, constructBnd per gn xs = .ok bms ∧ Made per nl X xs bms ∧
      (∀ n : Nat, OnBnd nl xs n ↔ OnSides per G Z n) ∧
      (∀ (r : Nat) (o : OutB V), bms[r]? = some o → ∀ c ∈ o.cells, ∃ (i j : Nat) (a : Slot), IsSide per nl G Z xs (lensB bms) r o c i j a ∧
        Owns cl r i) ∧
      ∀ (r : Nat) (o : OutB V) (i j : Nat) (a : Slot) (z : Info), bms[r]? = some o → Owns cl r i → IsSlot per G i j a → Z i j = some z →
        isPeriodic z.zone = false → ∃ c ∈ o.cells, IsSide per nl G Z xs (lensB bms) r o c i j a := by
  have hG := given_of hD hB hN hZ hA hn
  obtain ⟨bms, hb, hM⟩ := boundary_mesh hG
  have hcell : ∀ (r : Nat) (y : RankB V) (o : OutB V), xs[r]? = some y → bms[r]? = some o → ∀ c ∈ o.cells, ∃ (x : RankIn) (bs : List BndRow) (b : BndRow) (i j : Nat) (a : Slot),
      ranks[r]? = some x ∧ bnds[r]? = some bs ∧ bs[c.parent]? = some b ∧ Sits per cl nl G r x b i j ∧ Owns cl r i ∧ IsSide per nl G Z xs (lensB bms) r o c i j a := by
    intro r y o hy ho c hc
    obtain ⟨b, q, src, h1, h2, h3, h4, h5, h6, h7, h8⟩ := (hM.cells r y o hy ho).2 c hc
    have hrl := (List.getElem?_eq_some_iff.1 hy).1
    obtain ⟨y', x, bs, ot, z, a1, a2, a3, a4, a5, e1, e2, e3, e4⟩ := hA.at hB hN hZ (r := r) (by rw [← hA.size]; exact hrl)
    rw [hy] at a1; cases a1
    rw [e2] at h1
    rw [e3] at h3
    rw [e4] at h7
    obtain ⟨v, i, j, f, a, g1, g2, g3, g6, g4, g5⟩ := face_of hD hB hN hZ a2 a3 a4 a5 h1 h2
    rw [h3] at g1
    have hqv := Option.some.inj g1
    rcases h7 with ⟨hq, _⟩ | ⟨f', _, hf', hsrc, hpb⟩
    · omega
    · rw [hqv, Int.toNat_natCast, g2] at hf'
      cases hf'
      obtain ⟨i', j', hown, hs, hZ'⟩ := hB.sits r x bs c.parent b a2 a3 h1
      obtain ⟨l', a', s, k1, k2, k3, k4, k5⟩ := id hs
      -- the side the element sits on is the one of the face
      obtain ⟨v0, hv0, hv1⟩ := hZ.inverse r x z bs c.parent b a2 a5 a3 h1 h2
      rw [h3] at hv0
      have hv0' : v = v0 := by have := Option.some.inj hv0; omega
      subst hv0'
      have hvl := (List.getElem?_eq_some_iff.1 hv1).1
      rw [(hZ.sizes r ot z a4 a5).2] at hvl
      obtain ⟨lf, i2, j2, a2', m1, m2, m3, m4, m5, _⟩ := hN.faces r x ot v _ a2 a4 g2
      have hface : i2 = i' ∧ j2 = j' := by
        rcases hZ.face2bnd r x ot z bs v lf i2 j2 _ a2' a2 a4 a5 a3 g2 hvl m1 m2 m3 m4 with ⟨_, hn'⟩ | ⟨k', b', hk, hb', hs2⟩
        · rw [hv1] at hn'; cases hn'
        · rw [hv1] at hk
          have hkk : c.parent = k' := Option.some.inj (Option.some.inj hk)
          subst hkk
          rw [h1] at hb'; cases hb'
          exact sits_unique hD a2 hs2 hs
      obtain ⟨rfl, rfl⟩ := hface
      refine ⟨x, bs, b, i2, j2, a2', a2, a3, h1, hs, hown, m3, by rw [hZ', h4], fun hp => by rw [hpb hp, m5.pbi], ?_, ?_⟩
      · rw [h5, ← h6, hsrc, m5.len]
      · intro p n w hp hw
        have hpl := (List.getElem?_eq_some_iff.1 hp).1
        have hu : f.slot.nodes[p]? = some (f.slot.nodes[p]'(by rw [m5.len]; exact hpl)) := by simp
        obtain ⟨u0, un⟩ := m5.nodes p _ _ hp hu
        rw [hsrc] at h8
        obtain ⟨n', hon, hn', hw0, hwn⟩ := h8 p _ w hu hw
        rw [e1] at hn'
        have := Faces.name_inj (hD.holds r x a2).nodeMap.faithful u0 (by omega) (by omega) un hn'
        have : n = n' := by omega
        subst this
        exact ⟨hw0, hwn⟩
  refine ⟨bms, hb, hM, ?_, ?_, ?_⟩
  · intro n
    constructor
    · rintro ⟨s, y, b, v, hy, hby, hv, hnm⟩
      have hrl := (List.getElem?_eq_some_iff.1 hy).1
      obtain ⟨y', x, bs, o, z, a1, a2, a3, a4, a5, e1, e2, e3, e4⟩ := hA.at hB hN hZ (r := s) (by rw [← hA.size]; exact hrl)
      rw [hy] at a1; cases a1
      rw [e1] at hnm
      rw [e2] at hby
      obtain ⟨k, hk⟩ := List.mem_iff_getElem?.1 hby
      obtain ⟨i, j, _, ⟨l, a, s', f1, f2, f3, f4, f5⟩, hZij⟩ := hB.sits s x bs k b a2 a3 hk
      rw [localSlot_nodes hD a2 f2 f3 f4] at f5
      obtain ⟨m, hma, rfl⟩ := List.mem_map.1 (f5.mem_iff.1 hv)
      obtain ⟨g1, g2, g3⟩ := slot_nodes hD a2 f2 f3 m hma
      have := Faces.name_inj (hD.holds s x a2).nodeMap.faithful g2 (by omega) g1 hnm g3
      exact ⟨i, j, a, b.info, f3, hZij, by rw [this]; exact hma⟩
    · rintro ⟨i, j, a, z, ha, hz, hna⟩
      obtain ⟨C, hC, _⟩ := id ha
      have hi := (List.getElem?_eq_some_iff.1 hC).1
      rw [hD.len] at hi
      obtain ⟨r, hr⟩ := owns_exists (lens := cl) (q := i) (by omega) (by omega)
      have hrl := hr.1
      obtain ⟨y, x, bs, o, zz, a1, a2, a3, a4, a5, e1, e2, e3, e4⟩ := hA.at hB hN hZ (r := r) (by rw [hD.nranks]; exact hrl)
      obtain ⟨k, b, hk, ⟨l, a', s', f1, f2, f3, f4, f5⟩⟩ := hB.held r x bs i j a z a2 a3 hr ha hz
      have := slot_unique f3 ha
      subst this
      rw [localSlot_nodes hD a2 f2 f3 f4] at f5
      obtain ⟨g1, g2, g3⟩ := slot_nodes hD a2 f2 f3 n hna
      exact ⟨r, y, b, _, a1, by rw [e2]; exact List.mem_of_getElem? hk, f5.mem_iff.2 (List.mem_map_of_mem hna), by rw [e1]; exact g3⟩
  · intro r o ho c hc
    have hrl := (List.getElem?_eq_some_iff.1 ho).1
    rw [hM.size] at hrl
    obtain ⟨x, bs, b, i, j, a, _, _, _, _, h1, h2⟩ := hcell r (xs[r]) o (by simp) ho c hc
    exact ⟨i, j, a, h2, h1⟩
  · intro r o i j a z ho hown ha hz hper
    have hrl := hown.1
    obtain ⟨y, x, bs, ot, zz, a1, a2, a3, a4, a5, e1, e2, e3, e4⟩ := hA.at hB hN hZ (r := r) (by rw [hD.nranks]; exact hrl)
    obtain ⟨k, b, hk, hs⟩ := hB.held r x bs i j a z a2 a3 hown ha hz
    obtain ⟨i', j', _, hs', hZ'⟩ := hB.sits r x bs k b a2 a3 hk
    obtain ⟨rfl, rfl⟩ := sits_unique hD a2 hs hs'
    rw [hz] at hZ'
    have hzb : z = b.info := Option.some.inj hZ'
    have hmem : k ∈ o.cells.map (·.parent) := by
      rw [(hM.cells r y o a1 ho).1, List.mem_filter, List.mem_range, e2]
      refine ⟨(List.getElem?_eq_some_iff.1 hk).1, ?_⟩
      rw [hk]
      simp [← hzb, hper]
    obtain ⟨c, hc, hck⟩ := List.mem_map.1 hmem
    obtain ⟨x', bs', b', i2, j2, a', b1, b2, b3, b4, b5, b6⟩ := hcell r y o a1 ho c hc
    rw [a2] at b1; cases b1
    rw [a3] at b2; cases b2
    rw [hck, hk] at b3; cases b3
    obtain ⟨rfl, rfl⟩ := sits_unique hD a2 b4 hs
    have := slot_unique b6.slot ha
    subst this
    exact ⟨c, hc, b6⟩

end faces

/-! ### Non-vacuity -/

/-- the number of a local node -/
def numOf (nl : List Nat) (r : Nat) (m : Map) (v : Nat) : Nat :=
  if v < m.mainSize then before nl r + v else (m.ghostIndex[v - m.mainSize]?.getD 0).toNat

theorem numOf_eq {nl : List Nat} {r : Nat} {m : Map} (hf : nl[r]? = some m.mainSize) {n v : Nat} (h : LocalName nl r m.ghostIndex n v) :
    v < m.mainSize + m.ghostIndex.length ∧ numOf nl r m v = n := by
  unfold numOf
  rcases h with ⟨ho, e⟩ | ⟨_, k, hk, q, hq, e⟩ | ⟨_, _, e⟩
  · obtain ⟨w, h1, h2⟩ := ho
    have hw := (List.getElem?_eq_some_iff.1 hf).2
    rw [if_pos (by omega)]
    omega
  · rw [hf] at hq; cases hq
    have hkl := (List.getElem?_eq_some_iff.1 hk).1
    rw [if_neg (by omega), show v - m.mainSize = k by omega, hk]
    exact ⟨by omega, by simp⟩
  · omega

/-- the ranks of a mesh whose node `n` is at `X n` -/
def assemble (nl : List Nat) (X : Nat → V) (ranks : List RankIn) (bnds : List (List BndRow)) (outs : List RankOut) (zs : List ZSt) : List (RankB V) :=
  ranks.zipIdx.map fun y => ⟨y.1.nodeMap, (List.range (y.1.nodeMap.mainSize + y.1.nodeMap.ghostIndex.length)).map (fun v => X (numOf nl y.2 y.1.nodeMap v)),
    bnds[y.2]?.getD [], (zs[y.2]?.map (·.bnd2face)).getD [], (outs[y.2]?.map (·.faces)).getD []⟩

theorem assemble_at {nl : List Nat} {X : Nat → V} {ranks : List RankIn} {bnds : List (List BndRow)} {outs : List RankOut} {zs : List ZSt} {r : Nat} {y : RankB V}
    (h : (assemble nl X ranks bnds outs zs)[r]? = some y) : ∃ x, ranks[r]? = some x ∧
      y = ⟨x.nodeMap, (List.range (x.nodeMap.mainSize + x.nodeMap.ghostIndex.length)).map (fun v => X (numOf nl r x.nodeMap v)),
        bnds[r]?.getD [], (zs[r]?.map (·.bnd2face)).getD [], (outs[r]?.map (·.faces)).getD []⟩ := by
  simp only [assemble, List.getElem?_map, List.getElem?_zipIdx, Nat.zero_add, Option.map_map] at h
  obtain ⟨x, hx, rfl⟩ := Option.map_eq_some_iff.1 h
  exact ⟨x, hx, rfl⟩

theorem assembled (nl : List Nat) (X : Nat → V) (ranks : List RankIn) (bnds : List (List BndRow)) (outs : List RankOut) (zs : List ZSt) :
    Assembled ranks bnds outs zs (assemble nl X ranks bnds outs zs) := by
  refine ⟨by simp [assemble], ?_⟩
  intro r y x bs o z hy hx hbs ho hz
  obtain ⟨x', hx', rfl⟩ := assemble_at hy
  rw [hx] at hx'; cases hx'
  simp [hbs, ho, hz]

theorem assembled_nodes {nl : List Nat} {gn : GOM} (X : Nat → V) {ranks : List RankIn} (bnds : List (List BndRow)) (outs : List RankOut) (zs : List ZSt)
    (hg : Built nl gn) {reqs : List (List Int)} (hr : reqs.length = nl.length) (hp : createPull gn nl reqs = .ok (ranks.map (·.nodeMap)))
    (ho : ∀ (r : Nat) (x : RankIn), ranks[r]? = some x → ∀ q ∈ x.nodeMap.ghostIndex, ¬ Owns nl r q)
    (hs : (((ranks.map (fun x => x.nodeMap.ghostIndex.length)).sum : Nat) : Int) ≤ Defines.intMax 32) :
    Nodes nl gn X (assemble nl X ranks bnds outs zs) := by
  have e : (assemble nl X ranks bnds outs zs).map (·.nodeMap) = ranks.map (·.nodeMap) := by
    apply List.ext_getElem?
    intro r
    simp [assemble, List.getElem?_zipIdx, Option.map_map, Function.comp_def]
  have e2 : (assemble nl X ranks bnds outs zs).map (fun x => x.nodeMap.ghostIndex.length) = ranks.map (fun x => x.nodeMap.ghostIndex.length) := by
    have := congrArg (List.map (fun m : Map => m.ghostIndex.length)) e
    simpa [List.map_map, Function.comp_def] using this
  obtain ⟨_, hM⟩ := createPull_spec hg reqs hr _ hp
  refine ⟨hg, ⟨reqs, hr, by rw [e]; exact hp⟩, ?_, by rw [e2]; exact hs, ?_, ?_⟩
  · intro r y hy q hq
    obtain ⟨x, hx, rfl⟩ := assemble_at hy
    exact ho r x hx q hq
  · intro y hy
    obtain ⟨r, hy⟩ := List.mem_iff_getElem?.1 hy
    obtain ⟨x, hx, rfl⟩ := assemble_at hy
    simp [RankB.nProc]
  · intro r y n v hy hn
    obtain ⟨x, hx, rfl⟩ := assemble_at hy
    obtain ⟨h1, h2⟩ := numOf_eq (hM r x.nodeMap (by rw [List.getElem?_map, hx]; rfl)).size hn
    simp [List.getElem?_range h1, h2]

/-- two quadrilaterals on two ranks with elements all around and, if `p`, a periodic pair on the face between them: all six
nodes are on the boundary and get the numbers they have -/
example (p per : Bool) (X : Nat → V) : ∃ (gn : GOM) (xs : List (RankB V)) (bms : List (OutB V)), constructBnd per gn xs = .ok bms ∧ Made per [4, 2] X xs bms ∧
    bms.length = 2 ∧ (lensB bms).sum = 6 := by
  obtain ⟨gc, ranks, hD, hl, gn, hgn, hp, hg⟩ := TwoQuads.exists_ranks_nodes per
  obtain ⟨hB, hC⟩ := sample_bounded hD p
  obtain ⟨outs, F, zs, h1, hN, h3, hZ⟩ := zones_global per stable stable_sorts _ _ _ gc ranks hD _ _ hB
  have hn := assembled_nodes X (sampleBnds p per [1, 1] TwoQuads.mesh ranks) outs zs hgn rfl hp (by
    intro r x hx q hq
    have e := hg r x hx
    match r, e with
    | 0, e => rw [← Option.some.inj e] at hq; revert q; decide
    | 1, e => rw [← Option.some.inj e] at hq; revert q; decide
    | _ + 2, e => simp at e) (by
    match ranks, hl with
    | [a, b], _ =>
    have e1 := hg 0 a rfl
    have e2 := hg 1 b rfl
    have e1' : a.nodeMap.ghostIndex = [4, 5] := (Option.some.inj e1).symm
    have e2' : b.nodeMap.ghostIndex = [0, 1, 2, 3] := (Option.some.inj e2).symm
    simp [e1', e2', Defines.intMax])
  obtain ⟨bms, hb, hM, hon, _⟩ := boundary_sides hD hB hN hZ (assembled [4, 2] X ranks _ outs zs) hn
  refine ⟨gn, _, bms, hb, hM, by rw [hM.size]; simp [assemble, hl], ?_⟩
  rw [hM.total]
  have halone : ∀ (i j : Nat) (a : Slot), IsSlot per TwoQuads.mesh i j a →
      (∀ y ∈ TwoQuads.slots per, TwoQuads.Alike a y.2.2 → (y.1, y.2.1) = (i, j)) → Alone per TwoQuads.mesh i j := by
    intro i j a ha hk a' ha' i' j' b hb hab
    rw [slot_unique ha' ha] at hab
    exact hk _ (TwoQuads.mem_slots hb) ⟨hab.1, hab.2.1⟩
  have hside : ∀ n < 6, OnSides per TwoQuads.mesh (sample p per TwoQuads.mesh) n := by
    have a0 : Alone per TwoQuads.mesh 0 0 := halone 0 0 _ ⟨_, rfl, by decide, rfl⟩ (by cases per <;> decide +kernel)
    have a2 : Alone per TwoQuads.mesh 0 2 := halone 0 2 _ ⟨_, rfl, by decide, rfl⟩ (by cases per <;> decide +kernel)
    have a1 : Alone per TwoQuads.mesh 1 1 := halone 1 1 _ ⟨_, rfl, by decide, rfl⟩ (by cases per <;> decide +kernel)
    have go : ∀ (i j : Nat) (a : Slot), IsSlot per TwoQuads.mesh i j a → Alone per TwoQuads.mesh i j → ∀ n : Nat, (n : Int) ∈ a.nodes →
        OnSides per TwoQuads.mesh (sample p per TwoQuads.mesh) n := by
      intro i j a ha hal n hn
      exact ⟨i, j, a, _, ha, if_pos hal, hn⟩
    intro n hn
    match n, hn with
    | 0, _ => exact go 0 0 _ ⟨_, rfl, by decide, rfl⟩ a0 0 (by cases per <;> decide +kernel)
    | 1, _ => exact go 0 0 _ ⟨_, rfl, by decide, rfl⟩ a0 1 (by cases per <;> decide +kernel)
    | 2, _ => exact go 0 2 _ ⟨_, rfl, by decide, rfl⟩ a2 2 (by cases per <;> decide +kernel)
    | 3, _ => exact go 0 2 _ ⟨_, rfl, by decide, rfl⟩ a2 3 (by cases per <;> decide +kernel)
    | 4, _ => exact go 1 1 _ ⟨_, rfl, by decide, rfl⟩ a1 4 (by cases per <;> decide +kernel)
    | 5, _ => exact go 1 1 _ ⟨_, rfl, by decide, rfl⟩ a1 5 (by cases per <;> decide +kernel)
  classical
  unfold rankIn
  rw [show ([4, 2] : List Nat).sum = 6 from rfl, Nat.count_iff_forall.2 (fun n hn => (hon n).2 (hside n hn))]

end DNDSR.Bnd
