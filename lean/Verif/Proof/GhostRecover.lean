import Verif.Proof.GhostAdj

/-!
# `RecoverCell2CellAndBnd2Cell` on all ranks
-/

namespace DNDSR.Ghost

open DNDSR.IMap DNDSR.MeshAdj DNDSR.N2C DNDSR.Faces

/-! ### Ghost mappings of meshes that are not too large -/

theorem sorted_length : ∀ (l : List Int) (a : Int) (n : Nat), l.Pairwise (· < ·) → (∀ x ∈ l, a ≤ x ∧ x < a + n) → l.length ≤ n
  | [], _, _, _, _ => Nat.zero_le _
  | x :: xs, a, n, h, hr => by
      obtain ⟨h1, h2⟩ := List.pairwise_cons.1 h
      have hx := hr x (List.mem_cons_self ..)
      have := sorted_length xs (x + 1) (a + n - (x + 1)).toNat h2 (by
        intro y hy
        have := h1 y hy
        have := hr y (List.mem_cons_of_mem _ hy)
        omega)
      rw [List.length_cons]; omega

theorem sum_le_const {α : Type} (f : α → Nat) (n : Nat) : ∀ (l : List α), (∀ x ∈ l, f x ≤ n) → (l.map f).sum ≤ l.length * n
  | [], _ => by simp
  | x :: xs, h => by
      have := sum_le_const f n xs (fun y hy => h y (List.mem_cons_of_mem _ hy))
      have := h x (List.mem_cons_self ..)
      rw [List.map_cons, List.sum_cons, List.length_cons, Nat.add_mul]; omega

theorem small_sum {lens : List Nat} (h : Small lens) : (lens.sum : Int) ≤ Defines.intMax 32 := by
  have h0 : (0 : Int) ≤ Defines.intMax 32 := by decide
  have hM : (((Defines.intMax 32).toNat : Nat) : Int) = Defines.intMax 32 := by omega
  have key : ∀ l : List Nat, (∀ n ∈ l, lens.length * n ≤ (Defines.intMax 32).toNat) → lens.length * l.sum ≤ l.length * (Defines.intMax 32).toNat := by
    intro l
    induction l with
    | nil => intro _; simp
    | cons x xs ih =>
      intro hl
      have := ih (fun n hn => hl n (List.mem_cons_of_mem _ hn))
      have := hl x (List.mem_cons_self ..)
      rw [List.sum_cons, List.length_cons, Nat.mul_add, Nat.add_mul]; omega
  have := key lens (fun n hn => by have := h n hn; omega)
  by_cases hz : lens.length = 0
  · rw [List.length_eq_zero_iff.1 hz]; exact h0
  · have := Nat.le_of_mul_le_mul_left this (by omega)
    omega

theorem pull_small {lens : List Nat} {g : GOM} (hg : Built lens g) (hs : Small lens) (reqs : List (List Int))
    (hn : reqs.length = lens.length) (hr : ∀ req ∈ reqs, ∀ q ∈ req, 0 ≤ q ∧ q < lens.sum) : ∃ maps, createPull g lens reqs = .ok maps := by
  have hu : ∀ req ∈ reqs, (unique (sortIdx req)).Pairwise (· < ·) ∧ ∀ q ∈ unique (sortIdx req), 0 ≤ q ∧ q < lens.sum := by
    intro req hreq
    obtain ⟨h1, h2⟩ := pulling_spec req
    exact ⟨h1, fun q hq => hr req hreq q ((h2 q).1 hq)⟩
  refine createPull_total hg reqs hn hr ?_ ?_
  · intro req hreq
    obtain ⟨h1, h2⟩ := hu req hreq
    have := sorted_length _ 0 lens.sum h1 (fun x hx => by have := h2 x hx; omega)
    have := small_sum hs
    omega
  · intro r hr'
    have h1 := sum_le_const (fun req => cnt lens (unique (sortIdx req)) r) lens[r] reqs (by
      intro req hreq
      rw [cnt, List.countP_eq_length_filter]
      refine sorted_length _ (before lens r) lens[r] ((hu req hreq).1.sublist List.filter_sublist) ?_
      intro x hx
      have := (List.mem_filter.1 hx).2
      rw [decide_eq_true_eq, before_succ lens r hr'] at this
      omega)
    have h2 := hs lens[r] (List.getElem_mem hr')
    rw [hn] at h1
    omega

/-! ### The requests -/

theorem ext_sorted {a b : List Int} (ha : a.Pairwise (· < ·)) (hb : b.Pairwise (· < ·)) (h : ∀ c, c ∈ a ↔ c ∈ b) : a = b :=
  List.Perm.eq_of_pairwise (fun a b _ _ h h' => by omega) ha hb
    ((List.perm_ext_iff_of_nodup (nodup_of_sorted ha) (nodup_of_sorted hb)).2 h)

theorem RowsOk.unique {ps : List Piece} {r : Nat} {p : Piece} {a b : List (List Int)} (ha : RowsOk ps r p a) (hb : RowsOk ps r p b) : a = b := by
  refine List.ext_getElem? fun k => ?_
  by_cases hk : k < p.cells.length
  · have h1 : k < a.length := by rw [ha.len]; exact hk
    have h2 : k < b.length := by rw [hb.len]; exact hk
    rw [List.getElem?_eq_getElem h1, List.getElem?_eq_getElem h2]
    congr 1
    exact ext_sorted (ha.sorted _ (List.getElem_mem h1)) (hb.sorted _ (List.getElem_mem h2)) (fun c =>
      (ha.exact_ k _ (List.getElem?_eq_getElem h1) c).trans (hb.exact_ k _ (List.getElem?_eq_getElem h2) c).symm)
  · rw [List.getElem?_eq_none (by rw [ha.len]; omega), List.getElem?_eq_none (by rw [hb.len]; omega)]

/-- a list of results per rank with a property, from an `iff` per rank -/
theorem forRanks_iff {α β : Type} (f : Nat → α → Res β) (P : Nat → α → β → Prop) (l : List α)
    (h : ∀ (i : Nat) (x : α), l[i]? = some x → ∀ y, f i x = .ok y ↔ P i x y) (ys : List β) :
    forRanks f 0 l = .ok ys ↔ ys.length = l.length ∧ ∀ (i : Nat) (x : α) (y : β), l[i]? = some x → ys[i]? = some y → P i x y := by
  rw [forRanks_ok]
  refine and_congr_right fun hl => ?_
  constructor
  · intro hh i x y hx hy
    obtain ⟨z, h1, h2⟩ := hh i x hx
    have : y = z := Option.some.inj (hy.symm.trans h1)
    subst this
    exact (h i x hx y).1 (by simpa using h2)
  · intro hh i x hx
    have hi : i < ys.length := by rw [hl]; exact (List.getElem?_eq_some_iff.1 hx).1
    refine ⟨ys[i], List.getElem?_eq_getElem hi, ?_⟩
    have := (h i x hx _).2 (hh i x _ hx (List.getElem?_eq_getElem hi))
    simpa using this

/-- before ordering the two cells -/
structure PreOk (per : Bool) (ps : List Piece) (r : Nat) (p : Piece) (a : Adj) : Prop where
  rows : RowsOk ps r p a.c2c
  len : a.b2c.length = p.bnds.length
  pre : ∀ (k : Nat) (b : Bnd) (x : Int × Int), p.bnds[k]? = some b → a.b2c[k]? = some x → Pre per ps b x

theorem needs_spec {per : Bool} {ps : List Piece} (hP : PartsOk per ps) {h : Hash} (hf : Fair h) {gn : GOM} (hgn : Built (nodeLens ps) gn) :
    ∃ need, forRanks (fun r (p : Piece) => do
      let s ← needNodes gn r [] (p.cells.map (·.nodes)).flatten
      let s ← needNodes gn r s (p.bnds.map (·.nodes)).flatten
      .ok (h.set s)) 0 ps = .ok need ∧ need.length = ps.length ∧ ∀ (r : Nat) (p : Piece) (s : List Int), ps[r]? = some p → need[r]? = some s →
        ∀ q, q ∈ s ↔ ((∃ C ∈ p.cells, q ∈ C.nodes) ∨ ∃ b ∈ p.bnds, q ∈ b.nodes) ∧ ¬ Owns (nodeLens ps) r q := by
  refine N2C.forRanks_all _ (fun r (p : Piece) (s : List Int) => ∀ q, q ∈ s ↔ ((∃ C ∈ p.cells, q ∈ C.nodes) ∨ ∃ b ∈ p.bnds, q ∈ b.nodes) ∧
    ¬ Owns (nodeLens ps) r q) ps ?_
  intro r p hp
  have hmp := List.mem_of_getElem? hp
  have c1 : ∀ q, q ∈ (p.cells.map (·.nodes)).flatten ↔ ∃ C ∈ p.cells, q ∈ C.nodes := by
    intro q
    simp only [List.mem_flatten, List.mem_map]
    constructor
    · rintro ⟨l, ⟨C, hC, rfl⟩, hq⟩; exact ⟨C, hC, hq⟩
    · rintro ⟨C, hC, hq⟩; exact ⟨_, ⟨C, hC, rfl⟩, hq⟩
  have c2 : ∀ q, q ∈ (p.bnds.map (·.nodes)).flatten ↔ ∃ b ∈ p.bnds, q ∈ b.nodes := by
    intro q
    simp only [List.mem_flatten, List.mem_map]
    constructor
    · rintro ⟨l, ⟨C, hC, rfl⟩, hq⟩; exact ⟨C, hC, hq⟩
    · rintro ⟨C, hC, hq⟩; exact ⟨_, ⟨C, hC, rfl⟩, hq⟩
  obtain ⟨s1, e1, _, m1⟩ := needNodes_spec hgn r (p.cells.map (·.nodes)).flatten [] (by
    intro q hq
    obtain ⟨C, hC, hq⟩ := (c1 q).1 hq
    exact (hP.cells p hmp C hC).2 q hq)
  obtain ⟨s2, e2, _, m2⟩ := needNodes_spec hgn r (p.bnds.map (·.nodes)).flatten s1 (by
    intro q hq
    obtain ⟨C, hC, hq⟩ := (c2 q).1 hq
    exact (hP.bnds p hmp C hC).2 q hq)
  refine ⟨h.set s2, by rw [e1, Res.ok_bind, e2, Res.ok_bind], ?_⟩
  intro q
  rw [(hf.set s2).mem_iff, m2, m1, c1, c2]
  simp only [List.not_mem_nil, false_or]
  constructor
  · rintro (⟨a, b⟩ | ⟨a, b⟩)
    · exact ⟨Or.inl a, b⟩
    · exact ⟨Or.inr a, b⟩
  · rintro ⟨a | a, b⟩
    · exact Or.inl ⟨a, b⟩
    · exact Or.inr ⟨a, b⟩

/-! ### The first stage -/

theorem adj_iff {per : Bool} {ps : List Piece} {n2c : List (List (List Int))} (hP : PartsOk per ps) (hN : N2COk ps n2c) {gc gm : GOM}
    (hgc : Built (cellLens ps) gc) (hgm : Built (n2c.map List.length) gm) {need : List (List Int)} (hnl : need.length = ps.length)
    (hneed : ∀ (r : Nat) (p : Piece) (s : List Int), ps[r]? = some p → need[r]? = some s →
        ∀ q, q ∈ s ↔ ((∃ C ∈ p.cells, q ∈ C.nodes) ∨ ∃ b ∈ p.bnds, q ∈ b.nodes) ∧ ¬ Owns (nodeLens ps) r q)
    {maps : List Map} (hmaps : createPull gm (n2c.map List.length) need = .ok maps) (adj : List Adj) :
    forRanks (fun r (x : Piece × List (List Int) × Map) => do
      let son ← forRanks (fun _ q => fetch gm n2c q) 0 x.2.2.ghostIndex
      let rows := x.2.1 ++ son
      let tbl ← nodeTable x.2.2 rows.length
      let c2c ← forRanks (fun i (c : Cell) => neighbours tbl rows (local2GlobalNoSon gc r x.1.cells.length i) c.nodes) 0 x.1.cells
      let b2c ← forRanks (fun _ (b : Bnd) => do
        let s ← common tbl rows none b.nodes
        bndCells per b.zone s) 0 x.1.bnds
      .ok (⟨c2c, b2c⟩ : Adj)) 0 (ps.zip (n2c.zip maps)) = .ok adj ↔
    adj.length = ps.length ∧ ∀ (r : Nat) (p : Piece) (a : Adj), ps[r]? = some p → adj[r]? = some a → PreOk per ps r p a := by
  have hl : n2c.length = ps.length := by
    have := congrArg List.length hN.len
    simpa [nodeLens] using this
  obtain ⟨hml, hm⟩ := createPull_spec hgm need (by rw [List.length_map]; omega) maps hmaps
  rw [List.length_map] at hml
  have hzip : ∀ (r : Nat) (p : Piece), ps[r]? = some p → ∃ own m, n2c[r]? = some own ∧ maps[r]? = some m ∧
      (ps.zip (n2c.zip maps))[r]? = some (p, own, m) := by
    intro r p hp
    have hr := (List.getElem?_eq_some_iff.1 hp).1
    have h1 : n2c[r]? = some (n2c[r]'(by omega)) := List.getElem?_eq_getElem _
    have h2 : maps[r]? = some (maps[r]'(by omega)) := List.getElem?_eq_getElem _
    refine ⟨_, _, h1, h2, ?_⟩
    rw [List.getElem?_zip_eq_some]
    refine ⟨hp, ?_⟩
    rw [List.getElem?_zip_eq_some]
    exact ⟨h1, h2⟩
  rw [forRanks_iff _ (fun r (x : Piece × List (List Int) × Map) a => PreOk per ps r x.1 a)]
  · have hlz : (ps.zip (n2c.zip maps)).length = ps.length := by
      rw [List.length_zip, List.length_zip]; omega
    rw [hlz]
    refine and_congr_right fun hal => ?_
    constructor
    · intro hh r p a hp ha
      obtain ⟨own, m, h1, h2, h3⟩ := hzip r p hp
      exact hh r (p, own, m) a h3 ha
    · intro hh r x a hx ha
      exact hh r x.1 a (List.getElem?_zip_eq_some.1 hx).1 ha
  · intro r x hx a
    obtain ⟨p, own, m⟩ := x
    obtain ⟨hp, hx2⟩ := List.getElem?_zip_eq_some.1 hx
    obtain ⟨ho, hm'⟩ := List.getElem?_zip_eq_some.1 hx2
    have hmo := hm r m hm'
    obtain ⟨q, hq, hlo⟩ := hmo.req
    obtain ⟨c2c, hrows, hiff⟩ := rank_stage per hP hN hgc hgm hp ho (Faithful.of_pull hmo) (by
      intro x hx hno
      exact (hlo.mem x).2 ((hneed r p q hp hq x).2 ⟨hx, hno⟩))
    refine (hiff a).trans ?_
    constructor
    · rintro ⟨rfl, h2, h3⟩; exact ⟨hrows, h2, h3⟩
    · rintro ⟨h1, h2, h3⟩; exact ⟨h1.unique hrows, h2, h3⟩

/-! ### The second stage -/

theorem neededCells_mem (xs : List (Int × Int)) (c : Int) : c ∈ neededCells xs ↔ ∃ x ∈ xs, x.2 ≠ Faces.unInit ∧ (c = x.1 ∨ c = x.2) := by
  unfold neededCells
  simp only [List.mem_flatten, List.mem_map]
  constructor
  · rintro ⟨l, ⟨x, hx, rfl⟩, hc⟩
    split at hc
    · simp at hc
    · exact ⟨x, hx, by assumption, by simpa using hc⟩
  · rintro ⟨x, hx, h1, h2⟩
    exact ⟨_, ⟨x, hx, rfl⟩, by rw [if_neg h1]; simpa using h2⟩

theorem adjOk_iff {per : Bool} {ps : List Piece} {r : Nat} {p : Piece} {a : Adj} : AdjOk per ps r p a ↔ RowsOk ps r p a.c2c ∧
    a.b2c.length = p.bnds.length ∧ ∀ (k : Nat) (b : Bnd) (x : Int × Int), p.bnds[k]? = some b → a.b2c[k]? = some x → BndOk per ps b x :=
  ⟨fun h => ⟨⟨h.rows, h.sorted, h.exact_⟩, h.bnds, h.bnd⟩, fun h => ⟨⟨h.1.len, fun row hr => (h.1.sorted row hr).imp (fun h => Int.ne_of_lt h), h.1.exact_, h.2.1, h.2.2⟩, h.1.sorted⟩⟩

theorem pre_covers {ps : List Piece} {b : Bnd} {x : Int × Int} (h : Pre true ps b x) (hb : b.nodes ≠ []) (hu : x.2 ≠ Faces.unInit) :
    Global (cellLens ps) x.1 ∧ Global (cellLens ps) x.2 := by
  unfold Pre at h
  by_cases hz : (true : Bool) = true ∧ isPeriodicId b.zone = true
  · rw [if_pos hz] at h
    have hcell : ∀ c, Covers ps c b → Global (cellLens ps) c := by
      intro c hc
      obtain ⟨q, hq⟩ := List.exists_mem_of_ne_nil _ hb
      obtain ⟨C, hC, _⟩ := hc q hq
      exact isCell_global hC
    exact ⟨hcell _ ((h.2 _).2 (Or.inl rfl)), hcell _ ((h.2 _).2 (Or.inr rfl))⟩
  · rw [if_neg hz] at h
    exact absurd h.1 hu

theorem orient_stage {ps : List Piece} (hP : PartsOk true ps) {gc : GOM} (hgc : Built (cellLens ps) gc) {adj : List Adj}
    (hal : adj.length = ps.length) (hadj : ∀ (r : Nat) (p : Piece) (a : Adj), ps[r]? = some p → adj[r]? = some a → PreOk true ps r p a)
    {maps : List Map} (hmaps : createPull gc (ps.map (·.cells.length)) (adj.map (fun a : Adj => neededCells a.b2c)) = .ok maps) (out : List Adj) :
    forRanks (fun _ (x : Piece × Adj × Map) => do
      let son ← forRanks (fun _ q => fetch gc (ps.map (·.cells)) q) 0 x.2.2.ghostIndex
      let b2c ← forRanks (fun _ (y : Bnd × Int × Int) => orient x.2.2 (x.1.cells ++ son) y.1 y.2) 0 (x.1.bnds.zip x.2.1.b2c)
      .ok { x.2.1 with b2c := b2c }) 0 (ps.zip (adj.zip maps)) = .ok out ↔
    out.length = ps.length ∧ ∀ (r : Nat) (p : Piece) (a : Adj), ps[r]? = some p → out[r]? = some a → AdjOk true ps r p a := by
  obtain ⟨hml, hm⟩ := createPull_spec hgc (adj.map (fun a : Adj => neededCells a.b2c)) (by simp [cellLens, hal]) maps hmaps
  have hml' : maps.length = ps.length := by rw [hml]; simp [cellLens]
  have hzip : ∀ (r : Nat) (p : Piece), ps[r]? = some p → ∃ a m, adj[r]? = some a ∧ maps[r]? = some m ∧
      (ps.zip (adj.zip maps))[r]? = some (p, a, m) := by
    intro r p hp
    have hr := (List.getElem?_eq_some_iff.1 hp).1
    have h1 : adj[r]? = some (adj[r]'(by omega)) := List.getElem?_eq_getElem _
    have h2 : maps[r]? = some (maps[r]'(by omega)) := List.getElem?_eq_getElem _
    refine ⟨_, _, h1, h2, ?_⟩
    rw [List.getElem?_zip_eq_some]
    refine ⟨hp, ?_⟩
    rw [List.getElem?_zip_eq_some]
    exact ⟨h1, h2⟩
  rw [forRanks_iff _ (fun r (x : Piece × Adj × Map) a => AdjOk true ps r x.1 a)]
  · have hlz : (ps.zip (adj.zip maps)).length = ps.length := by
      rw [List.length_zip, List.length_zip]; omega
    rw [hlz]
    refine and_congr_right fun hal => ?_
    constructor
    · intro hh r p a hp ha
      obtain ⟨own, m, h1, h2, h3⟩ := hzip r p hp
      exact hh r (p, own, m) a h3 ha
    · intro hh r x a hx ha
      exact hh r x.1 a (List.getElem?_zip_eq_some.1 hx).1 ha
  · intro r x hx y
    obtain ⟨p, a, m⟩ := x
    obtain ⟨hp, hx2⟩ := List.getElem?_zip_eq_some.1 hx
    obtain ⟨ha, hm'⟩ := List.getElem?_zip_eq_some.1 hx2
    have hmo := hm r m hm'
    obtain ⟨req, hreq, hlo⟩ := hmo.req
    rw [List.getElem?_map, ha] at hreq
    have hreq' : req = neededCells a.b2c := (Option.some.inj hreq).symm
    have hpre := hadj r p a hp ha
    have hF : Faithful (cellLens ps) r m := Faithful.of_pull hmo
    have hb' : Built ((ps.map (fun x : Piece => x.cells)).map List.length) gc := by rw [cellLens_eq]; exact hgc
    obtain ⟨son, e1, l1, s1⟩ := fetch_all hb' m.ghostIndex (by rw [cellLens_eq]; exact hF.loc.range)
    simp only [e1, Res.ok_bind]
    have hone : ∀ (k : Nat) (z : Bnd × Int × Int), (p.bnds.zip a.b2c)[k]? = some z → ∀ w,
        orient m (p.cells ++ son) z.1 z.2 = .ok w ↔ BndOk true ps z.1 w := by
      intro k z hz w
      obtain ⟨z1, z2⟩ := List.getElem?_zip_eq_some.1 hz
      have hb := List.mem_of_getElem? z1
      refine orient_iff hP hp hF l1 s1 hb (hpre.pre k _ _ z1 z2) ?_ w
      intro hu
      have hmem : ∀ c, c = z.2.1 ∨ c = z.2.2 → c ∈ m.ghostIndex := by
        intro c hc
        refine (hlo.mem c).2 ?_
        rw [hreq', neededCells_mem]
        exact ⟨z.2, List.mem_of_getElem? z2, hu, hc⟩
      exact ⟨Or.inr (hmem _ (Or.inl rfl)), Or.inr (hmem _ (Or.inr rfl))⟩
    have hlz : (p.bnds.zip a.b2c).length = p.bnds.length := by rw [List.length_zip, hpre.len]; omega
    rw [adjOk_iff]
    constructor
    · intro h
      obtain ⟨b2c, h1, h2⟩ := (Res.bind_ok_iff _ _ _).1 h
      cases Res.ok.inj h2
      obtain ⟨l4, s4⟩ := (forRanks_iff _ (fun _ (z : Bnd × Int × Int) w => BndOk true ps z.1 w) _ hone b2c).1 h1
      refine ⟨hpre.rows, by simp only; omega, ?_⟩
      intro k b w hb hw
      have hk : k < a.b2c.length := by rw [hpre.len]; exact (List.getElem?_eq_some_iff.1 hb).1
      have hz : (p.bnds.zip a.b2c)[k]? = some (b, a.b2c[k]) := List.getElem?_zip_eq_some.2 ⟨hb, List.getElem?_eq_getElem hk⟩
      exact s4 k (b, a.b2c[k]) w hz hw
    · rintro ⟨h1, h2, h3⟩
      refine (Res.bind_ok_iff _ _ _).2 ⟨y.b2c, (forRanks_iff _ (fun _ (z : Bnd × Int × Int) w => BndOk true ps z.1 w) _ hone _).2
        ⟨by omega, ?_⟩, ?_⟩
      · intro k z w hz hw
        exact h3 k z.1 w (List.getElem?_zip_eq_some.1 hz).1 hw
      · have := h1.unique hpre.rows
        rw [← this]

/-! ### All of it -/

theorem preOk_false {ps : List Piece} {r : Nat} {p : Piece} {a : Adj} : PreOk false ps r p a ↔ AdjOk false ps r p a := by
  rw [adjOk_iff]
  have : ∀ b x, Pre false ps b x ↔ BndOk false ps b x := by
    intro b x
    unfold Pre BndOk
    rw [if_neg (by simp), if_neg (by simp)]
  constructor
  · intro h; exact ⟨h.rows, h.len, fun k b x hb hx => (this b x).1 (h.pre k b x hb hx)⟩
  · intro h; exact ⟨h.1, h.2.1, fun k b x hb hx => (this b x).2 (h.2.2 k b x hb hx)⟩

theorem recover_ok {per : Bool} {h : Hash} (hf : Fair h) {ps : List Piece} {n2c : List (List (List Int))} (hP : PartsOk per ps) (hN : N2COk ps n2c)
    {out : List Adj} (ho : recover per h ps n2c = .ok out) :
    out.length = ps.length ∧ ∀ (r : Nat) (p : Piece) (a : Adj), ps[r]? = some p → out[r]? = some a → AdjOk per ps r p a := by
  obtain ⟨gn, hgn⟩ := built_exists (nodeLens ps)
  obtain ⟨gc, hgc⟩ := built_exists (cellLens ps)
  obtain ⟨gm, hgm⟩ := built_exists (n2c.map List.length)
  obtain ⟨need, e1, l1, s1⟩ := needs_spec hP hf hgn
  have g1 : setMPIAlignBcast ((ps.map (·.nNodes)).map Int.ofNat) = .ok gn := hgn
  have g2 : setMPIAlignBcast ((ps.map (·.cells.length)).map Int.ofNat) = .ok gc := hgc
  have g3 : setMPIAlignBcast ((n2c.map List.length).map Int.ofNat) = .ok gm := hgm
  simp only [recover, g1, g2, g3, Res.ok_bind, e1] at ho
  obtain ⟨maps, hmaps, ho⟩ := (Res.bind_ok_iff _ _ _).1 ho
  obtain ⟨adj, hadj, ho⟩ := (Res.bind_ok_iff _ _ _).1 ho
  obtain ⟨hal, hpre⟩ := (adj_iff hP hN hgc hgm l1 s1 hmaps adj).1 hadj
  cases per with
  | false =>
    cases Res.ok.inj ho
    exact ⟨hal, fun r p a hp ha => preOk_false.1 (hpre r p a hp ha)⟩
  | true =>
    simp only [if_true, orientAll] at ho
    obtain ⟨maps', hmaps', ho⟩ := (Res.bind_ok_iff _ _ _).1 ho
    exact (orient_stage hP hgc hal hpre hmaps' out).1 ho

theorem exists_list {α β : Type} (P : Nat → α → β → Prop) (l : List α) (h : ∀ (i : Nat) (x : α), l[i]? = some x → ∃ y, P i x y) :
    ∃ ys : List β, ys.length = l.length ∧ ∀ (i : Nat) (x : α) (y : β), l[i]? = some x → ys[i]? = some y → P i x y := by
  induction l generalizing P with
  | nil => exact ⟨[], rfl, by intro i x y hx; simp at hx⟩
  | cons a l ih =>
    obtain ⟨y, hy⟩ := h 0 a rfl
    obtain ⟨ys, h1, h2⟩ := ih (fun i => P (i + 1)) (fun i x hx => h (i + 1) x (by simpa using hx))
    refine ⟨y :: ys, by simp [h1], ?_⟩
    intro i x z hx hz
    cases i with
    | zero => cases hx; cases hz; exact hy
    | succ i => exact h2 i x z (by simpa using hx) (by simpa using hz)

theorem recover_exists {per : Bool} {h : Hash} (hf : Fair h) {ps : List Piece} {n2c : List (List (List Int))} (hP : PartsOk per ps) (hN : N2COk ps n2c)
    (hs : Small (nodeLens ps)) (hs' : Small (cellLens ps)) (hb : ∀ p ∈ ps, ∀ b ∈ p.bnds, ∃ x, BndOk per ps b x) :
    ∃ out, recover per h ps n2c = .ok out := by
  obtain ⟨gn, hgn⟩ := built_exists (nodeLens ps)
  obtain ⟨gc, hgc⟩ := built_exists (cellLens ps)
  obtain ⟨gm, hgm⟩ := built_exists (n2c.map List.length)
  obtain ⟨need, e1, l1, s1⟩ := needs_spec hP hf hgn
  have g1 : setMPIAlignBcast ((ps.map (·.nNodes)).map Int.ofNat) = .ok gn := hgn
  have g2 : setMPIAlignBcast ((ps.map (·.cells.length)).map Int.ofNat) = .ok gc := hgc
  have g3 : setMPIAlignBcast ((n2c.map List.length).map Int.ofNat) = .ok gm := hgm
  have hl : n2c.length = ps.length := by
    have := congrArg List.length hN.len
    simpa [nodeLens] using this
  obtain ⟨maps, hmaps⟩ := pull_small hgm (by rw [hN.len]; exact hs) need (by rw [List.length_map]; omega) (by
    intro s hs q hq
    obtain ⟨r, hr⟩ := List.mem_iff_getElem?.1 hs
    have hr' : r < ps.length := by rw [← l1]; exact (List.getElem?_eq_some_iff.1 hr).1
    have hp := List.getElem?_eq_getElem hr'
    rw [hN.len]
    rcases ((s1 r _ s hp hr q).1 hq).1 with ⟨C, hC, hq⟩ | ⟨b, hb, hq⟩
    · exact (hP.cells _ (List.getElem_mem hr') C hC).2 q hq
    · exact (hP.bnds _ (List.getElem_mem hr') b hb).2 q hq)
  have hmo := (createPull_spec hgm need (by rw [List.length_map]; omega) maps hmaps)
  -- candidates for the result of the first stage
  have hcand : ∀ (r : Nat) (p : Piece), ps[r]? = some p → ∃ a, PreOk per ps r p a := by
    intro r p hp
    have hmp := List.mem_of_getElem? hp
    have hr := (List.getElem?_eq_some_iff.1 hp).1
    have hm' : maps[r]? = some (maps[r]'(by rw [hmo.1, List.length_map]; omega)) := List.getElem?_eq_getElem _
    obtain ⟨q, hq, hlo⟩ := (hmo.2 r _ hm').req
    obtain ⟨c2c, hrows, -⟩ := rank_stage per hP hN hgc hgm hp (List.getElem?_eq_getElem (by omega)) (Faithful.of_pull (hmo.2 r _ hm')) (by
      intro x hx hno
      exact (hlo.mem x).2 ((s1 r p q hp hq x).2 ⟨hx, hno⟩))
    obtain ⟨b2c, h1, h2⟩ := exists_list (fun _ b x => Pre per ps b x) p.bnds (by
      intro i b hb'
      obtain ⟨x, hx⟩ := hb p hmp b (List.mem_of_getElem? hb')
      exact pre_of_bndOk hx)
    exact ⟨⟨c2c, b2c⟩, hrows, h1, h2⟩
  obtain ⟨adj, hal, hpre⟩ := exists_list (fun r p a => PreOk per ps r p a) ps hcand
  have hadj := (adj_iff hP hN hgc hgm l1 s1 hmaps adj).2 ⟨hal, hpre⟩
  cases per with
  | false =>
    refine ⟨adj, ?_⟩
    simp only [recover, g1, g2, g3, Res.ok_bind, e1, hmaps]
    rw [hadj]; rfl
  | true =>
    obtain ⟨maps', hmaps'⟩ := pull_small hgc hs' (adj.map (fun a : Adj => neededCells a.b2c)) (by simp [cellLens, hal]) (by
      intro req hreq q hq
      obtain ⟨a, ha, rfl⟩ := List.mem_map.1 hreq
      obtain ⟨r, hr⟩ := List.mem_iff_getElem?.1 ha
      have hr' : r < ps.length := by rw [← hal]; exact (List.getElem?_eq_some_iff.1 hr).1
      have hp := List.getElem?_eq_getElem hr'
      have hpa := hpre r _ a hp hr
      obtain ⟨x, hx, hu, hc⟩ := (neededCells_mem _ _).1 hq
      obtain ⟨k, hk⟩ := List.mem_iff_getElem?.1 hx
      have hk' : k < ps[r].bnds.length := by rw [← hpa.len]; exact (List.getElem?_eq_some_iff.1 hk).1
      have hbk := List.getElem?_eq_getElem hk'
      obtain ⟨c1, c2⟩ := pre_covers (hpa.pre k _ x hbk hk) (hP.bnds _ (List.getElem_mem hr') _ (List.getElem_mem hk')).1 hu
      rcases hc with rfl | rfl
      · exact c1
      · exact c2)
    have hcand2 : ∀ (r : Nat) (p : Piece), ps[r]? = some p → ∃ a, AdjOk true ps r p a := by
      intro r p hp
      obtain ⟨a, ha⟩ := hcand r p hp
      obtain ⟨b2c, h1, h2⟩ := exists_list (fun _ b x => BndOk true ps b x) p.bnds (fun i b hb' =>
        hb p (List.mem_of_getElem? hp) b (List.mem_of_getElem? hb'))
      exact ⟨⟨a.c2c, b2c⟩, adjOk_iff.2 ⟨ha.rows, h1, h2⟩⟩
    obtain ⟨out, h1, h2⟩ := exists_list (fun r p a => AdjOk true ps r p a) ps hcand2
    refine ⟨out, ?_⟩
    simp only [recover, g1, g2, g3, Res.ok_bind, e1, hmaps]
    rw [hadj, Res.ok_bind]
    have hm2 : createPull gc (ps.map (·.cells.length)) (adj.map (fun a : Adj => neededCells a.b2c)) = .ok maps' := hmaps'
    simp only [if_true, orientAll, hm2, Res.ok_bind]
    exact (orient_stage hP hgc hal hpre hmaps' out).2 ⟨h1, h2⟩

end DNDSR.Ghost
