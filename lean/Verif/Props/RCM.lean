import Verif.Proof.RCMOrder

/-!
# C22, C70: the reordering is a permutation, and follows a search
-/

namespace DNDSR.RCM

variable {g : Graph}

theorem mem_directed (a b : Int) : (a, b) ∈ directedEdges g ↔ Vertex g a ∧ b ∈ nbr g a ∧ a ≠ b := by
  unfold directedEdges rowEdges
  simp only [List.mem_flatten, List.mem_map, Prod.exists]
  constructor
  · rintro ⟨l, ⟨row, i, hx, rfl⟩, hm⟩
    rw [List.mem_map] at hm
    obtain ⟨j, hj, he⟩ := hm
    rw [List.mem_filter] at hj
    simp only [Prod.mk.injEq] at he
    obtain ⟨rfl, rfl⟩ := he
    have hx2 := List.mem_zipIdx_iff_getElem?.mp hx
    simp only at hx2
    have hi := (List.getElem?_eq_some_iff.mp hx2).1
    refine ⟨⟨Int.natCast_nonneg i, by omega⟩, ?_, by simpa using hj.2⟩
    unfold nbr
    rw [if_pos (Int.natCast_nonneg i), Int.toNat_natCast, List.getD_eq_getElem?_getD, hx2]
    exact hj.1
  · rintro ⟨⟨h0, h1⟩, hb, hne⟩
    have hi : a.toNat < g.length := by omega
    refine ⟨_, ⟨g[a.toNat], a.toNat, List.mem_zipIdx_iff_getElem?.mpr (List.getElem?_eq_getElem hi), rfl⟩, ?_⟩
    rw [List.mem_map]
    have ha : ((a.toNat : Nat) : Int) = a := by omega
    refine ⟨b, ?_, by rw [ha]⟩
    rw [List.mem_filter, ha]
    refine ⟨?_, by simpa using hne⟩
    unfold nbr at hb
    rwa [if_pos h0, List.getD_eq_getElem _ _ hi] at hb

theorem directed_nodup : (directedEdges g).Nodup ↔ ∀ i, Vertex g i → ((nbr g i).filter fun j => decide (i ≠ j)).Nodup := by
  unfold directedEdges
  rw [List.nodup_flatten]
  have hrow : ∀ (i : Nat) (row : List Int), (rowEdges i row).Nodup ↔ (row.filter fun j => decide ((i : Int) ≠ j)).Nodup := by
    intro i row
    unfold rowEdges
    exact List.nodup_map_iff (fun a b h => (Prod.mk.inj h).2)
  constructor
  · rintro ⟨h, _⟩ i hi
    have hlt : i.toNat < g.length := by have := hi.1; have := hi.2; omega
    have := h (rowEdges i.toNat g[i.toNat]) (List.mem_map.mpr ⟨(g[i.toNat], i.toNat),
      List.mem_zipIdx_iff_getElem?.mpr (List.getElem?_eq_getElem hlt), rfl⟩)
    rw [hrow] at this
    have ha : ((i.toNat : Nat) : Int) = i := by have := hi.1; omega
    rw [ha] at this
    unfold nbr
    rwa [if_pos hi.1, List.getD_eq_getElem _ _ hlt]
  · intro h
    refine ⟨?_, ?_⟩
    · intro l hl
      obtain ⟨⟨row, i⟩, hx, rfl⟩ := List.mem_map.mp hl
      have hx2 := List.mem_zipIdx_iff_getElem?.mp hx
      simp only at hx2
      have hi := (List.getElem?_eq_some_iff.mp hx2).1
      rw [hrow]
      have := h i ⟨Int.natCast_nonneg i, by omega⟩
      unfold nbr at this
      rwa [if_pos (Int.natCast_nonneg i), Int.toNat_natCast, List.getD_eq_getElem?_getD, hx2] at this
    · rw [List.pairwise_map]
      have hp : List.Pairwise (fun a b : List Int × Nat => a.2 < b.2) g.zipIdx := by
        have : List.Pairwise (· < ·) (g.zipIdx.map Prod.snd) := by
          rw [List.zipIdx_map_snd]
          exact List.pairwise_lt_range'
        exact List.pairwise_map.mp this
      refine hp.imp ?_
      intro a b hab e ha hb
      unfold rowEdges at ha hb
      obtain ⟨x, _, rfl⟩ := List.mem_map.mp ha
      obtain ⟨y, _, he⟩ := List.mem_map.mp hb
      have := (Prod.mk.inj he).1
      omega

theorem count_sorted (E : List (Int × Int)) (e : Int × Int) (he : e.1 ≠ e.2) :
    (E.map fun e => (min e.2 e.1, max e.2 e.1)).count (min e.2 e.1, max e.2 e.1) = E.count e + E.count e.swap := by
  induction E with
  | nil => rfl
  | cons x xs ih =>
    rw [List.map_cons, List.count_cons, ih, List.count_cons, List.count_cons]
    obtain ⟨a, b⟩ := e
    obtain ⟨c, d⟩ := x
    simp only at he
    have h1 : (((min d c, max d c) : Int × Int) == (min b a, max b a)) = true ↔ (((c, d) : Int × Int) == (a, b)) = true ∨ (((c, d) : Int × Int) == (b, a)) = true := by
      simp only [beq_iff_eq, Prod.mk.injEq]
      omega
    have h2 : ¬ ((((c, d) : Int × Int) == (a, b)) = true ∧ (((c, d) : Int × Int) == (b, a)) = true) := by
      simp only [beq_iff_eq, Prod.mk.injEq]
      omega
    simp only [Prod.swap]
    by_cases p : (((c, d) : Int × Int) == (a, b)) = true
    · have q : ¬ (((c, d) : Int × Int) == (b, a)) = true := fun q => h2 ⟨p, q⟩
      rw [if_pos (h1.mpr (Or.inl p)), if_pos p, if_neg q]; omega
    · by_cases q : (((c, d) : Int × Int) == (b, a)) = true
      · rw [if_pos (h1.mpr (Or.inr q)), if_neg p, if_pos q]; omega
      · rw [if_neg (fun h => (h1.mp h).elim p q), if_neg p, if_neg q]; omega

theorem checkAdj_ok : checkAdj g = .ok () ↔ Symmetric g := by
  have hfirst : ((directedEdges g).all fun e => decide ((directedEdges g).count e = 1)) = true ↔ (directedEdges g).Nodup := by
    rw [List.all_eq_true, List.nodup_iff_count_eq_one]
    simp
  have hsecond (hn : (directedEdges g).Nodup) : ((sortedEdges g).all fun e => decide ((sortedEdges g).count e = 2)) = true ↔
      ∀ e ∈ directedEdges g, e.swap ∈ directedEdges g := by
    rw [List.all_eq_true]
    unfold sortedEdges
    simp only [List.mem_map, decide_eq_true_eq, forall_exists_index, and_imp, forall_apply_eq_imp_iff₂]
    refine forall_congr' fun e => forall_congr' fun he => ?_
    have hne : e.1 ≠ e.2 := ((mem_directed e.1 e.2).mp he).2.2
    rw [count_sorted _ e hne, List.count_eq_one_of_mem hn he]
    constructor
    · intro h
      exact List.count_pos_iff.mp (by omega)
    · intro h
      rw [List.count_eq_one_of_mem hn h]
  unfold checkAdj
  constructor
  · intro h
    split at h
    · rename_i h1
      split at h
      · rename_i h2
        have hn := hfirst.mp h1
        refine ⟨directed_nodup.mp hn, ?_⟩
        intro i hi j hj hij
        have := (hsecond hn).mp h2 (i, j) ((mem_directed i j).mpr ⟨hi, hj, hij⟩)
        have := (mem_directed j i).mp this
        exact ⟨this.1, this.2.1⟩
      · cases h
    · cases h
  · intro h
    have hn : (directedEdges g).Nodup := directed_nodup.mpr h.once
    rw [if_pos (hfirst.mpr hn), if_pos]
    rw [hsecond hn]
    rintro ⟨a, b⟩ he
    have := (mem_directed a b).mp he
    have hb := h.back a this.1 b this.2.1 this.2.2
    exact (mem_directed b a).mpr ⟨hb.1, hb.2, fun e => this.2.2 e.symm⟩

theorem checkAdj_cases (g : Graph) : checkAdj g = .ok () ∨ checkAdj g = .abort := by
  unfold checkAdj
  split
  · split
    · exact Or.inl rfl
    · exact Or.inr rfl
  · exact Or.inr rfl

theorem mem_all (a b : Int) : (a, b) ∈ bandWidth.directedAll g ↔ Vertex g a ∧ b ∈ nbr g a := by
  unfold bandWidth.directedAll
  simp only [List.mem_flatten, List.mem_map, Prod.exists]
  constructor
  · rintro ⟨l, ⟨row, i, hx, rfl⟩, hm⟩
    rw [List.mem_map] at hm
    obtain ⟨j, hj, he⟩ := hm
    simp only [Prod.mk.injEq] at he
    obtain ⟨rfl, rfl⟩ := he
    have hx2 := List.mem_zipIdx_iff_getElem?.mp hx
    simp only at hx2
    have hi := (List.getElem?_eq_some_iff.mp hx2).1
    refine ⟨⟨Int.natCast_nonneg i, by omega⟩, ?_⟩
    unfold nbr
    rw [if_pos (Int.natCast_nonneg i), Int.toNat_natCast, List.getD_eq_getElem?_getD, hx2]
    exact hj
  · rintro ⟨⟨h0, h1⟩, hb⟩
    have hi : a.toNat < g.length := by omega
    refine ⟨_, ⟨g[a.toNat], a.toNat, List.mem_zipIdx_iff_getElem?.mpr (List.getElem?_eq_getElem hi), rfl⟩, ?_⟩
    rw [List.mem_map]
    refine ⟨b, ?_, by simp; omega⟩
    unfold nbr at hb
    rwa [if_pos h0, List.getD_eq_getElem _ _ hi] at hb

theorem band_fold (num : Int → Res Int) (f : Int → Int) : ∀ (es : List (Int × Int)) (m : Int), 0 ≤ m →
    (∀ e ∈ es, num e.1 = .ok (f e.1) ∧ num e.2 = .ok (f e.2)) →
    ∃ b, es.foldlM (fun (m : Int) e => do
      let a ← num e.1
      let b ← num e.2
      .ok (max m (a - b).natAbs)) m = Res.ok b ∧ m ≤ b ∧ (∀ e ∈ es, |f e.1 - f e.2| ≤ b) ∧ (b = m ∨ ∃ e ∈ es, b = |f e.1 - f e.2|) := by
  intro es
  induction es with
  | nil => intro m _ _; exact ⟨m, rfl, le_refl _, by simp, Or.inl rfl⟩
  | cons e es ih =>
    intro m hm h
    have he := h e (by simp)
    obtain ⟨b, h1, h2, h3, h4⟩ := ih (max m (f e.1 - f e.2).natAbs) (by omega) fun x hx => h x (by simp [hx])
    refine ⟨b, ?_, by omega, ?_, ?_⟩
    · rw [List.foldlM_cons, he.1, Res.ok_bind, he.2, Res.ok_bind, Res.ok_bind]
      exact h1
    · intro x hx
      rcases List.mem_cons.mp hx with rfl | hx
      · rw [Int.abs_eq_natAbs]
        exact le_trans (le_max_right _ _) h2
      · exact h3 x hx
    · rcases h4 with h4 | ⟨x, hx, h4⟩
      · by_cases hc : m ≤ ((f e.1 - f e.2).natAbs : Int)
        · right; exact ⟨e, by simp, by rw [Int.abs_eq_natAbs]; omega⟩
        · left; omega
      · right; exact ⟨x, by simp [hx], h4⟩

theorem bandWidth_spec (num : Int → Res Int) (f : Int → Int) (h : ∀ i, Vertex g i → ∀ j ∈ nbr g i, num i = .ok (f i) ∧ num j = .ok (f j)) :
    ∃ b, bandWidth g num = .ok b ∧ BandWidth g f b := by
  obtain ⟨b, h1, _, h3, h4⟩ := band_fold num f (bandWidth.directedAll g) 0 (le_refl _)
    (by rintro ⟨a, b⟩ he; have := (mem_all a b).mp he; exact h a this.1 b this.2)
  refine ⟨b, h1, ?_, ?_⟩
  · intro i hi j hj
    exact h3 (i, j) ((mem_all i j).mpr ⟨hi, hj⟩)
  · rcases h4 with h4 | ⟨⟨a, c⟩, he, h4⟩
    · exact Or.inl h4
    · have := (mem_all a c).mp he
      exact Or.inr ⟨a, this.1, c, this.2, h4⟩

theorem invert_spec : ∀ (vs : List Int) (i : Nat) (out : List Int), vs.Nodup → (∀ v ∈ vs, 0 ≤ v ∧ v < out.length) →
    ∃ r, invert vs i out = .ok r ∧ r.length = out.length ∧ (∀ k (h : k < vs.length), entry r vs[k] = (i + k : Nat)) ∧
      ∀ w, w ∉ vs → entry r w = entry out w := by
  intro vs
  induction vs with
  | nil => intro i out _ _; exact ⟨out, rfl, rfl, by simp, by simp⟩
  | cons v vs ih =>
    intro i out hn hr
    have hv := hr v (by simp)
    have hn' := List.nodup_cons.mp hn
    obtain ⟨r, h1, h2, h3, h4⟩ := ih (i + 1) (out.set v.toNat (i : Int)) hn'.2 (by
      intro w hw; rw [List.length_set]; exact hr w (by simp [hw]))
    refine ⟨r, ?_, by rw [h2, List.length_set], ?_, ?_⟩
    · unfold invert; rw [if_pos ⟨hv.1, by omega⟩, h1]
    · intro k hk
      cases k with
      | zero =>
        show entry r v = _
        rw [h4 v hn'.1, entry_set _ _ hv.1 hv.2, if_pos rfl]; simp
      | succ k =>
        rw [List.getElem_cons_succ, h3 k (by simpa using hk)]
        push_cast; omega
    · intro w hw
      rw [List.mem_cons, not_or] at hw
      rw [h4 w hw.2, entry_set _ _ hv.1 hv.2, if_neg hw.1]

/-- The visitor that records the vertices it is called with. -/
def recorder : Visitor (List Int) where
  node := fun i _ s => .ok (s ++ [i])
  comp := none

/-- **C22**: a search from a vertex of a symmetric graph calls the visitor once for each vertex that can be reached,
and for no other, and returns the distances from it. -/
theorem bfs_visits (hg : Symmetric g) {root : Int} (hr : Vertex g root) :
    ∃ D layer, bfs g recorder root [] = .ok (D, layer) ∧ D.Nodup ∧ (∀ w, w ∈ D ↔ Reach g root w) ∧
      layer.length = g.length ∧ ∀ w, Vertex g w → Distance g root w (entry layer w) := by
  have hv : Good g recorder root (fun D s => s = D) :=
    ⟨fun D s i l hs _ _ => ⟨s ++ [i], rfl, by rw [hs]⟩, by intro c hc; exact absurd hc (by simp [recorder])⟩
  obtain ⟨s, layer, D, h1, h2, h3, h4, _, _, h5⟩ := bfs_spec hg hr hv rfl
  subst h2
  exact ⟨s, layer, h1, h3, h4, h5⟩

/-- The parts of the graph get numbers without a gap; a vertex that is not the last of its part has a neighbour
with a larger number; and of two vertices of a part the one with the larger number has a neighbour whose number is not below
that of any neighbour of the other, unless it is the last one. So the order is the reverse of a breadth first search in
each part. -/
def ReverseSearch (g : Graph) (num : Int → Int) : Prop :=
  (∀ u v w, Vertex g u → Vertex g v → Vertex g w → num u < num v → num v < num w → Reach g u w → Reach g u v) ∧
  (∀ v, Vertex g v → (∀ u, Reach g v u → num u ≤ num v) ∨ ∃ u ∈ nbr g v, num v < num u) ∧
  ∀ u v z, Vertex g u → Reach g u v → num v < num u → z ∈ nbr g v → (∀ w, Reach g u w → num w ≤ num u) ∨ ∃ w ∈ nbr g u, num z ≤ num w

/-- **C22, C70**: for every symmetric graph, connected or not, the two lists are mutually inverse permutations, the two band
widths are those before and after, and the order is the reverse of a search in each part. -/
theorem reorder_permutation (hg : Symmetric g) (hsz : g.length ≤ 2 ^ 31) :
    ∃ o, reorder g = .ok o ∧ Inverse g.length o.new2Old o.old2New ∧ BandWidth g id o.bandOld ∧ BandWidth g (entry o.old2New) o.bandNew ∧
      ReverseSearch g (entry o.old2New) := by
  obtain ⟨num, V, hcm, hso, hlen, hVn, hVm, hnum⟩ := cuthillMcKee_spec hg hsz (root := 0)
    (by by_cases h : g.length = 0; exacts [Or.inl h, Or.inr ⟨le_refl _, by omega⟩]) (List.replicate g.length 0) (by simp)
  have hVlen : V.length = g.length := by
    have h1 := length_le hVn fun w hw => (hVm w).mp hw
    have h2 := (List.subperm_of_subset (l₁ := (List.range g.length).map Int.ofNat) (l₂ := V)
      (List.nodup_range.map (fun a b h => Int.ofNat.inj h)) (by
        intro w hw
        obtain ⟨k, hk, rfl⟩ := List.mem_map.mp hw
        exact (hVm _).mpr ⟨Int.natCast_nonneg k, by have := List.mem_range.mp hk; show (k : Int) < _; omega⟩)).length_le
    simp only [List.length_map, List.length_range] at h2
    omega
  obtain ⟨bo, hbo, hbo2⟩ := bandWidth_spec (g := g) (fun i => .ok i) id fun i _ j _ => ⟨rfl, rfl⟩
  set o2n := num.map fun v => (g.length : Int) - 1 - v with ho2n
  have hol : o2n.length = g.length := by rw [ho2n, List.length_map, hlen]
  have hoe : ∀ w, Vertex g w → entry o2n w = (g.length : Int) - 1 - entry num w := by
    intro w hw
    have h1 : w.toNat < num.length := by have := hw.1; have := hw.2; omega
    rw [entry_eq hw.1 (by rw [hol]; omega), entry_eq hw.1 h1, List.getElem_map]
  -- every vertex has its place in `V`
  have hpos : ∀ w, Vertex g w → ∃ k, ∃ h : k < V.length, V[k] = w := fun w hw => List.getElem_of_mem ((hVm w).mpr hw)
  have hval : ∀ k (h : k < V.length), entry o2n V[k] = (g.length : Int) - 1 - k := by
    intro k h
    rw [hoe _ ((hVm _).mp (List.getElem_mem h)), hnum k h]
  have hrange : ∀ w, Vertex g w → 0 ≤ entry o2n w ∧ entry o2n w < g.length := by
    intro w hw
    obtain ⟨k, hk, rfl⟩ := hpos w hw
    rw [hval k hk]; omega
  have hmem : ∀ x ∈ o2n, 0 ≤ x ∧ x < g.length := by
    intro x hx
    obtain ⟨k, hk, rfl⟩ := List.getElem_of_mem hx
    have hv : Vertex g (k : Int) := ⟨Int.natCast_nonneg k, by omega⟩
    have := hrange k hv
    rwa [entry_eq hv.1 (by simpa using hk)] at this
  have hinj : ∀ u w, Vertex g u → Vertex g w → entry o2n u = entry o2n w → u = w := by
    intro u w hu hw h
    obtain ⟨k, hk, rfl⟩ := hpos u hu
    obtain ⟨l, hl, rfl⟩ := hpos w hw
    rw [hval, hval] at h
    have : k = l := by omega
    subst this; rfl
  have hond : o2n.Nodup := by
    rw [List.nodup_iff_injective_get]
    intro a b h
    have ha : Vertex g ((a : Nat) : Int) := ⟨Int.natCast_nonneg _, by have := a.2; omega⟩
    have hb : Vertex g ((b : Nat) : Int) := ⟨Int.natCast_nonneg _, by have := b.2; omega⟩
    have := hinj _ _ ha hb (by rw [entry_eq ha.1 (by simp), entry_eq hb.1 (by simp)]; simpa using h)
    exact Fin.ext (by omega)
  obtain ⟨n2o, hinv, hnl, hni, _⟩ := invert_spec o2n 0 (List.replicate g.length 0) hond (by simpa using hmem)
  rw [List.length_replicate] at hnl
  have hback : ∀ w, Vertex g w → entry n2o (entry o2n w) = w := by
    intro w hw
    have h1 : w.toNat < o2n.length := by have := hw.1; have := hw.2; omega
    rw [entry_eq hw.1 h1, hni _ h1]
    have := hw.1; omega
  have hn2o : ∀ i, Vertex g i → ∃ w, Vertex g w ∧ entry n2o i = w ∧ entry o2n w = i := by
    intro i hi
    have h0 := hi.1
    have h1 := hi.2
    have hk : (g.length - 1 - i.toNat) < V.length := by omega
    have hw := (hVm _).mp (List.getElem_mem hk)
    have he : entry o2n V[g.length - 1 - i.toNat] = i := by rw [hval _ hk]; omega
    refine ⟨_, hw, ?_, he⟩
    have := hback _ hw
    rwa [he] at this
  obtain ⟨bn, hbn, hbn2⟩ := bandWidth_spec (g := g) (idxI o2n) (entry o2n) fun i hi j hj =>
    ⟨idx_entry o2n hi.1 (by rw [hol]; exact hi.2), by
      have hvj := nbr_vertex hg hi hj
      exact idx_entry o2n hvj.1 (by rw [hol]; exact hvj.2)⟩
  refine ⟨{ new2Old := n2o, old2New := o2n, bandOld := bo, bandNew := bn }, ?_, ?_, hbo2, hbn2, ?_, ?_, ?_⟩
  · unfold reorder
    rw [hbo, Res.ok_bind, checkAdj_ok.mpr hg, Res.ok_bind, hcm, Res.ok_bind]
    simp only []
    rw [← ho2n, if_pos (List.all_eq_true.mpr fun x hx => by simpa using (hmem x hx).symm),
      if_pos (by rw [List.dedup_eq_self.mpr hond]), hinv, Res.ok_bind]
    rw [if_pos, hbn, Res.ok_bind]
    rw [List.all_eq_true]
    intro x hx
    obtain ⟨k, hk, rfl⟩ := List.getElem_of_mem hx
    have hv : Vertex g (k : Int) := ⟨Int.natCast_nonneg k, by omega⟩
    obtain ⟨w, hw, he, _⟩ := hn2o k hv
    rw [entry_eq hv.1 (by simpa using hk)] at he
    simp only [Int.toNat_natCast] at he
    rw [he]
    simpa using hw.symm
  · refine ⟨hnl, hol, fun i h0 h1 => ⟨?_, ?_⟩⟩
    · obtain ⟨w, hw, he, hb⟩ := hn2o i ⟨h0, h1⟩
      simp only [he]
      exact ⟨hw.1, hw.2, hb⟩
    · have := hrange i ⟨h0, h1⟩
      exact ⟨this.1, this.2, hback i ⟨h0, h1⟩⟩
  · intro u v w hu hv hw h1 h2 hr
    obtain ⟨i, hi, rfl⟩ := hpos u hu
    obtain ⟨j, hj, rfl⟩ := hpos v hv
    obtain ⟨k, hk, rfl⟩ := hpos w hw
    simp only [hval] at h1 h2
    -- `k < j < i`
    have := hso.block k j i _ _ _ (by omega) (by omega) (List.getElem?_eq_getElem hk) (List.getElem?_eq_getElem hj)
      (List.getElem?_eq_getElem hi) (reach_symm hg hu hr)
    exact reach_trans hr this
  · intro v hv
    obtain ⟨k, hk, rfl⟩ := hpos v hv
    rcases hso.next k _ (List.getElem?_eq_getElem hk) with h | ⟨l, u, hlk, hu, h⟩
    · left
      intro u hu
      obtain ⟨l, hl, rfl⟩ := hpos u (reach_vertex hg hv hu)
      simp only [hval]
      have : ¬ l < k := fun hlk => h l _ hlk (List.getElem?_eq_getElem hl) hu
      omega
    · right
      obtain ⟨hl, rfl⟩ := List.getElem?_eq_some_iff.mp hu
      refine ⟨_, nbr_symm hg ((hVm _).mp (List.getElem_mem hl)) h, ?_⟩
      simp only [hval]
      omega
  · intro u v z hu hr huv hz
    have hv := reach_vertex hg hu hr
    have hzv := nbr_vertex hg hv hz
    have hzn := nbr_symm hg hv hz
    obtain ⟨a, ha, rfl⟩ := hpos u hu
    obtain ⟨b, hb, rfl⟩ := hpos v hv
    obtain ⟨p, hp, rfl⟩ := hpos z hzv
    simp only [hval] at huv
    rcases hso.mono a b p _ _ _ (by omega) (List.getElem?_eq_getElem ha) (List.getElem?_eq_getElem hb) (List.getElem?_eq_getElem hp) hr hzn
      with h | ⟨q, w, hq, hw, h⟩
    · left
      intro w hw
      obtain ⟨l, hl, rfl⟩ := hpos w (reach_vertex hg hu hw)
      simp only [hval]
      have : ¬ l < a := fun hlk => h l _ hlk (List.getElem?_eq_getElem hl) hw
      omega
    · right
      obtain ⟨hl, rfl⟩ := List.getElem?_eq_some_iff.mp hw
      refine ⟨_, nbr_symm hg ((hVm _).mp (List.getElem_mem hl)) h, ?_⟩
      simp only [hval]
      omega

/-- **C22**: anything that is not a symmetric graph is refused. -/
theorem reorder_rejects (hg : ¬ Symmetric g) : reorder g = .abort := by
  obtain ⟨bo, hbo, _⟩ := bandWidth_spec (g := g) (fun i => .ok i) id fun i _ j _ => ⟨rfl, rfl⟩
  have : checkAdj g = .abort := by
    rcases checkAdj_cases g with h | h
    · exact absurd (checkAdj_ok.mp h) hg
    · exact h
  unfold reorder
  rw [hbo, Res.ok_bind, this]
  rfl

/-! ## Cases -/

/-- A path, a triangle and a lone vertex with a loop. -/
def demo : Graph := [[3], [4, 5], [2], [0, 6], [5, 1], [4, 1], [3]]

example : Symmetric demo := checkAdj_ok.mp (by decide +kernel)

example : reorder demo = .ok { new2Old := [2, 1, 5, 4, 0, 3, 6], old2New := [4, 1, 0, 5, 3, 2, 6], bandOld := 4, bandNew := 2 } := by
  decide +kernel

/-- An edge listed at one end only is refused. -/
example : reorder [[1], []] = .abort := by decide +kernel

/-- A star with centre 3 and an edge between two of its leaves. -/
def star : Graph := [[3], [3, 4], [3], [0, 1, 2, 4], [1, 3]]

/-- **C70 fails**: vertices first reached from the same vertex are not numbered by degree. In this graph the vertices 0, 1 and
4 are reached from vertex 3, and vertex 0 has the least degree, but it is numbered last of the three (first in the reverse).
The comparison takes the number 0, which a vertex has before it is numbered, for that of a predecessor. -/
theorem not_by_degree : Symmetric star ∧ (∃ o, reorder star = .ok o ∧ o.old2New = [0, 2, 4, 3, 1]) ∧
    (nbr star 0).length < (nbr star 1).length ∧ (nbr star 0).length < (nbr star 4).length :=
  ⟨checkAdj_ok.mp (by decide +kernel), ⟨{ new2Old := [0, 4, 1, 3, 2], old2New := [0, 2, 4, 3, 1], bandOld := 3, bandNew := 3 }, by decide +kernel, rfl⟩,
    by decide, by decide⟩

end DNDSR.RCM
