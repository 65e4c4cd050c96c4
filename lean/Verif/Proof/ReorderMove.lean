import Verif.Proof.ReorderGraph

/-!
# Moving rows, looking up new numbers
-/

namespace DNDSR.Reorder

open DNDSR.IMap DNDSR.MeshAdj DNDSR.Faces DNDSR.Ghost DNDSR.Elem

theorem toLocal_own {lens : List Nat} {g : GOM} (hg : Built lens g) {r : Nat} {c : Int} (h : Owns lens r c) :
    global2LocalNoSon g r c = .ok (c - before lens r) := by
  have hr := owns_range h
  rw [global2LocalNoSon, if_neg (by have : Part.unInit < 0 := by decide
                                    omega), search_of_owns hg h, Res.ok_bind]
  simp

theorem toGlobal_own {lens : List Nat} {g : GOM} (hg : Built lens g) {r n : Nat} (hn : lens[r]? = some n) {v : Int} (h0 : 0 ≤ v) (h1 : v < n) :
    local2GlobalNoSon g r n v = .ok (before lens r + v) := by
  obtain ⟨hr, e⟩ := List.getElem?_eq_some_iff.1 hn
  have hu : Part.unInit < 0 := by decide
  rw [local2GlobalNoSon, if_neg (by omega), if_neg (by omega), Res.assert_true _ (by omega), Res.ok_bind]
  rw [apply_eq hg r hr, if_pos (by omega)]

theorem place_spec {α : Type} {lens : List Nat} {g : GOM} (hg : Built lens g) {r n : Nat} (hn : lens[r]? = some n) :
    ∀ (tab : List Int) (rows out : List α), tab.length = rows.length → out.length = n → tab.Nodup → (∀ c ∈ tab, Owns lens r c) →
      ∃ out', place g r tab rows out = .ok out' ∧ out'.length = n ∧
        (∀ (k : Nat) (c : Int), tab[k]? = some c → out'[(c - before lens r).toNat]? = rows[k]?) ∧
        ∀ l : Nat, (before lens r : Int) + l ∉ tab → out'[l]? = out[l]?
  | [], rows, out, _, ho, _, _ => ⟨out, rfl, ho, by simp, by simp⟩
  | c :: cs, [], out, hl, _, _, _ => by simp at hl
  | c :: cs, row :: rows, out, hl, ho, hd, hc => by
      obtain ⟨d1, d2⟩ := List.nodup_cons.1 hd
      have hoc := hc c (List.mem_cons_self ..)
      obtain ⟨hr, e⟩ := List.getElem?_eq_some_iff.1 hn
      obtain ⟨_, b1, b2⟩ := id hoc
      rw [e] at b2
      obtain ⟨out', e', l', h1, h2⟩ := place_spec hg hn cs rows (out.set (c - before lens r).toNat row) (by simpa using hl)
        (by rw [List.length_set]; exact ho) d2 (fun x hx => hc x (List.mem_cons_of_mem _ hx))
      refine ⟨out', ?_, l', ?_, ?_⟩
      · rw [place, toLocal_own hg hoc, Res.ok_bind, if_pos (by omega)]
        exact e'
      · intro k x hx
        cases k with
        | zero =>
          simp only [List.getElem?_cons_zero, Option.some.injEq] at hx
          subst hx
          rw [h2 _ (by rw [show (before lens r : Int) + ((c - before lens r).toNat : Int) = c by omega]; exact d1),
            List.getElem?_set_self (by omega)]
          rfl
        | succ k =>
          simp only [List.getElem?_cons_succ] at hx ⊢
          exact h1 k x hx
      · intro l hl'
        simp only [List.mem_cons, not_or] at hl'
        rw [h2 l hl'.2, List.getElem?_set_ne (by omega)]

theorem place_map {α β : Type} (f : α → β) {g : GOM} {r : Nat} : ∀ (tab : List Int) (rows out o : List α), place g r tab rows out = .ok o →
    place g r tab (rows.map f) (out.map f) = .ok (o.map f)
  | [], rows, out, o, h => by rw [place] at h ⊢; rw [Res.ok.inj h]
  | c :: cs, [], out, o, h => by rw [place] at h; cases h
  | c :: cs, row :: rows, out, o, h => by
      rw [place, Res.bind_ok_iff] at h
      obtain ⟨v, hv, h⟩ := h
      rw [List.map_cons, place, hv, Res.ok_bind]
      split at h
      · rename_i hc
        rw [if_pos (by rw [List.length_map]; exact hc), ← List.map_set]
        exact place_map f cs rows _ o h
      · cases h

theorem globalSize_eq {lens : List Nat} {g : GOM} (hg : Built lens g) : g.globalSize = lens.sum := by
  have h1 := built_offs_length hg
  have h2 := built_offs hg lens.length (Nat.le_refl _)
  simp only [GOM.globalSize, List.getLast?_eq_getElem?, h1, Nat.add_sub_cancel, h2, before, List.take_length]

theorem record_spec {lens : List Nat} {g : GOM} (hg : Built lens g) (r : Nat) : ∀ (cs : List Int), (∀ c ∈ cs, c = Faces.unInit ∨ Global lens c) →
    ∃ t, record g r cs = .ok t ∧ ∀ c, c ∈ t ↔ c ∈ cs ∧ Global lens c ∧ ¬ Owns lens r c
  | [], _ => ⟨[], rfl, by simp⟩
  | c :: cs, h => by
      obtain ⟨t, e, ht⟩ := record_spec hg r cs (fun x hx => h x (List.mem_cons_of_mem _ hx))
      have hsz : g.globalSize = lens.sum := globalSize_eq hg
      unfold record
      rcases h c (List.mem_cons_self ..) with hc | hc
      · have hu : Faces.unInit < 0 := by decide
        rw [if_neg (by omega), Res.assert_true _ hc, Res.ok_bind]
        refine ⟨t, e, fun x => ?_⟩
        rw [ht, List.mem_cons]
        constructor
        · rintro ⟨h1, h2⟩; exact ⟨Or.inr h1, h2⟩
        · rintro ⟨rfl | h1, h2⟩
          · rw [hc] at h2; exact absurd h2.1 unInit_not_global
          · exact ⟨h1, h2⟩
      · obtain ⟨ρ, hρ⟩ := owns_exists hc.1 hc.2
        rw [if_pos (by rw [hsz]; exact hc), search_of_owns hg hρ, Res.ok_bind]
        refine ⟨if ρ ≠ r then c :: t else t, by simp only [e, Res.ok_bind], fun x => ?_⟩
        by_cases hr : ρ = r
        · subst hr
          rw [if_neg (by simp), ht, List.mem_cons]
          constructor
          · rintro ⟨h1, h2⟩; exact ⟨Or.inr h1, h2⟩
          · rintro ⟨rfl | h1, h2⟩
            · exact absurd hρ h2.2
            · exact ⟨h1, h2⟩
        · rw [if_pos hr, List.mem_cons, ht, List.mem_cons]
          constructor
          · rintro (rfl | ⟨h1, h2⟩)
            · exact ⟨Or.inl rfl, hc, fun ho => hr (owns_unique hρ ho)⟩
            · exact ⟨Or.inr h1, h2⟩
          · rintro ⟨rfl | h1, h2⟩
            · exact Or.inl rfl
            · exact Or.inr ⟨h1, h2⟩

theorem forRanks_pure {α β : Type} (f : Nat → α → Res β) (h : α → β) (l : List α) (hf : ∀ (i : Nat) (x : α), x ∈ l → f i x = .ok (h x)) :
    forRanks f 0 l = .ok (l.map h) := by
  rw [forRanks_ok]
  refine ⟨List.length_map .., fun i x hx => ⟨h x, by rw [List.getElem?_map, hx]; rfl, hf _ x (List.mem_of_getElem? hx)⟩⟩

theorem mapRows_pure (f : Nat → Int → Res Int) (h : Int → Int) (rows : List (List Int)) (hf : ∀ row ∈ rows, ∀ (i : Nat), ∀ x ∈ row, f i x = .ok (h x)) :
    mapRows f rows = .ok (rows.map (·.map h)) := by
  rw [mapRows]
  exact forRanks_pure _ _ _ fun _ row hrow => forRanks_pure _ _ _ fun i x hx => hf row hrow i x hx

/-- the new number as the tables have it -/
theorem replace_spec {o2n : List (List Int)} {r : Nat} {m : Map} (hm : Faithful (o2n.map List.length) r m) {own son : List Int} (ho : o2n[r]? = some own)
    (hl : son.length = m.ghostIndex.length) (hs : ∀ (k : Nat) (q : Int), m.ghostIndex[k]? = some q → son[k]? = o2n.flatten[q.toNat]?)
    {c : Int} (hc : c = Faces.unInit ∨ (0 ≤ c ∧ (Owns (o2n.map List.length) r c ∨ c ∈ m.ghostIndex))) :
    replace m (own ++ son) c = .ok (rename (fun c => (o2n.flatten[c.toNat]?).getD 0) c) := by
  rw [replace, rename]
  by_cases hu : c = Faces.unInit
  · rw [if_pos hu, if_pos hu]
  · rw [if_neg hu, if_neg hu]
    obtain ⟨h0, hk⟩ := hc.resolve_left hu
    rcases hm.mustFind_eq c with ⟨v, e, hv, hn, _⟩ | ⟨h1, h2, _⟩
    · have hrow := held_row hm ho hl hs h0 hv hn
      have hlt : c.toNat < o2n.flatten.length := by
        rw [List.length_flatten]
        rcases hk with hk | hk
        · have := owns_range hk; omega
        · have := hm.loc.range c hk; omega
      rw [e, Res.ok_bind, at64, if_pos hv, List.getElem?_eq_getElem hlt, Option.getD_some]
      exact (idx_ok_iff _ _ _).2 (hrow.trans (List.getElem?_eq_getElem hlt))
    · exact absurd hk (by rintro (h | h); exacts [h1 h, h2 h])

/-- pulled rows, seen through a function -/
theorem fetch_map {α β : Type} (f : α → β) {rows : List (List α)} {g : GOM} (hg : Built (rows.map List.length) g) (qs : List Int)
    (h : ∀ q ∈ qs, 0 ≤ q ∧ q < (rows.map List.length).sum) {son : List α} (hl : son.length = qs.length)
    (hs : ∀ (k : Nat) (q : Int), qs[k]? = some q → son[k]? = rows.flatten[q.toNat]?) :
    forRanks (fun _ q => fetch g (rows.map (·.map f)) q) 0 qs = .ok (son.map f) := by
  have hlen : (rows.map (·.map f)).map List.length = rows.map List.length := by
    rw [List.map_map]; exact List.map_congr_left fun _ _ => List.length_map ..
  obtain ⟨son', e, l', hs'⟩ := fetch_all (rows := rows.map (·.map f)) (by rw [hlen]; exact hg) qs (by rw [hlen]; exact h)
  rw [e]
  congr 1
  refine List.ext_getElem? fun k => ?_
  rw [List.getElem?_map]
  by_cases hk : k < qs.length
  · rw [hs' k _ (List.getElem?_eq_getElem hk), hs k _ (List.getElem?_eq_getElem hk), ← List.map_flatten, List.getElem?_map]
  · rw [List.getElem?_eq_none (by omega), List.getElem?_eq_none (by omega)]; rfl

theorem rowsRel_unique {R : Int → Int → Prop} {a b b' : List (List Int)} (hR : ∀ row ∈ a, ∀ q ∈ row, ∀ v w, R q v → R q w → v = w)
    (h : RowsRel R a b) (h' : RowsRel R a b') : b = b' := by
  refine List.ext_getElem? fun i => ?_
  by_cases hi : i < a.length
  · have h1 : i < b.length := by rw [← h.1]; exact hi
    have h2 : i < b'.length := by rw [← h'.1]; exact hi
    obtain ⟨l1, r1⟩ := h.2 i _ _ (List.getElem?_eq_getElem hi) (List.getElem?_eq_getElem h1)
    obtain ⟨l2, r2⟩ := h'.2 i _ _ (List.getElem?_eq_getElem hi) (List.getElem?_eq_getElem h2)
    rw [List.getElem?_eq_getElem h1, List.getElem?_eq_getElem h2]
    congr 1
    refine List.ext_getElem (by omega) fun j hj hj' => ?_
    have hj0 : j < (a[i]).length := by omega
    exact hR _ (List.getElem_mem hi) _ (List.getElem_mem hj0) _ _
      (r1 j _ _ (List.getElem?_eq_getElem hj0) (List.getElem?_eq_getElem hj)) (r2 j _ _ (List.getElem?_eq_getElem hj0) (List.getElem?_eq_getElem hj'))
  · rw [List.getElem?_eq_none (by have := h.1; omega), List.getElem?_eq_none (by have := h'.1; omega)]

theorem primary_unique {ps : List Piece} {r : Nat} {p : Piece} {a : Adj} {x : Held} (hx : HeldMeans ps r x) {y y' : Primary} (h : PrimaryOk ps r p a x y)
    (h' : PrimaryOk ps r p a x y') (hs : y.state = y'.state) : y = y' := by
  have hF := hx.cellMap.faithful
  have hN := hx.nodeMap.faithful
  have hc : ∀ q v w, Named (cellLens ps) r x.cellMap.ghostIndex q v → Named (cellLens ps) r x.cellMap.ghostIndex q w → v = w := by
    rintro q v w (⟨e, e1⟩ | ⟨e, h1⟩) (⟨e', e2⟩ | ⟨e', h2⟩)
    · rw [e1, e2]
    · exact absurd e e'
    · exact absurd e' e
    · exact hF.name_unique h1 h2
  have hn : ∀ q v w, (0 ≤ v ∧ LocalName (nodeLens ps) r x.nodeMap.ghostIndex q v) → (0 ≤ w ∧ LocalName (nodeLens ps) r x.nodeMap.ghostIndex q w) → v = w :=
    fun q v w h1 h2 => hN.name_unique h1.2 h2.2
  obtain ⟨s, a1, a2, a3, a4⟩ := y
  obtain ⟨s', b1, b2, b3, b4⟩ := y'
  have e1 : a1 = b1 := rowsRel_unique (fun _ _ q _ v w => hc q v w) h.c2c h'.c2c
  have e2 : a2 = b2 := rowsRel_unique (fun _ _ q _ v w => hc q v w) h.b2c h'.b2c
  have e3 : a3 = b3 := rowsRel_unique (fun _ _ q _ v w => hn q v w) h.c2n h'.c2n
  have e4 : a4 = b4 := rowsRel_unique (fun _ _ q _ v w => hn q v w) h.b2n h'.b2n
  simp only at hs
  subst hs e1 e2 e3 e4
  rfl

end DNDSR.Reorder
