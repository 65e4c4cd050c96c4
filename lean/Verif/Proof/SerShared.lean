import Verif.Spec.Serializer

/-! # Lemmas for shared vectors -/

namespace DNDSR.Ser

variable {P V : Type} [DecidableEq P]

theorem lookup_cons_ne {β : Type} {γ : Type} [DecidableEq β] (k k' : β) (v : γ) (l : List (β × γ)) (h : k ≠ k') :
    ((k', v) :: l).lookup k = l.lookup k := by
  have : (k == k') = false := by simpa using h
  simp [List.lookup, this]

theorem lookup_cons_eq {β : Type} {γ : Type} [DecidableEq β] (k : β) (v : γ) (l : List (β × γ)) :
    ((k, v) :: l).lookup k = some v := by
  simp [List.lookup]

/-- what the writer has established after the writes `ws` -/
structure WOk (ws : List (Wr P V)) (s : WSt P V) : Prop where
  written : ∀ w ∈ ws, ∃ q, s.ptr2pth.lookup w.a = some q ∧ s.doc.lookup q = some (.arr w.v) ∧
    (w.p = q ∨ s.doc.lookup w.p = some (.ref q))
  keys : ∀ p e, s.doc.lookup p = some e → ∃ w ∈ ws, w.p = p
  targets : ∀ a q, s.ptr2pth.lookup a = some q → ∃ w ∈ ws, w.p = q ∧ w.a = a

/-- same address, same contents -/
def Consistent (ws : List (Wr P V)) : Prop := ∀ w ∈ ws, ∀ w' ∈ ws, w.a = w'.a → w.v = w'.v

theorem writeShared_ok {ws : List (Wr P V)} {s : WSt P V} {w : Wr P V} (h : WOk ws s)
    (hnew : ∀ u ∈ ws, u.p ≠ w.p) (hc : ∀ u ∈ ws, u.a = w.a → u.v = w.v) :
    WOk (ws ++ [w]) (writeShared s w.p w.a w.v) := by
  have hfresh : ∀ q e, s.doc.lookup q = some e → q ≠ w.p := by
    intro q e hq
    obtain ⟨u, hu, rfl⟩ := h.keys q e hq
    exact hnew u hu
  unfold writeShared
  split
  · next q hq =>
    obtain ⟨u, hu, hup, hua⟩ := h.targets _ _ hq
    have hw := h.written u hu
    constructor
    · intro x hx
      rcases List.mem_append.1 hx with hx | hx
      · obtain ⟨q', h1, h2, h3⟩ := h.written x hx
        refine ⟨q', h1, ?_, ?_⟩
        · rw [lookup_cons_ne _ _ _ _ (hfresh _ _ h2)]; exact h2
        · rcases h3 with h3 | h3
          · exact .inl h3
          · right; rw [lookup_cons_ne _ _ _ _ (hnew x hx)]; exact h3
      · simp only [List.mem_singleton] at hx
        subst hx
        obtain ⟨q', h1, h2, _⟩ := hw
        rw [hua, hq] at h1
        injection h1 with h1
        subst h1
        rw [hc u hu hua] at h2
        refine ⟨q, hq, ?_, .inr (lookup_cons_eq _ _ _)⟩
        rw [lookup_cons_ne _ _ _ _ (hfresh _ _ h2)]; exact h2
    · intro p e hp
      by_cases e1 : p = w.p
      · exact ⟨w, by simp, e1.symm⟩
      · simp only [lookup_cons_ne _ _ _ _ e1] at hp
        obtain ⟨u, hu, hp⟩ := h.keys p e hp
        exact ⟨u, by simp [hu], hp⟩
    · intro a q' hq'
      obtain ⟨u, hu, hp⟩ := h.targets a q' hq'
      exact ⟨u, by simp [hu], hp⟩
  · next hq =>
    have hna : ∀ u ∈ ws, u.a ≠ w.a := by
      intro u hu he
      obtain ⟨q, h1, _⟩ := h.written u hu
      rw [he, hq] at h1
      cases h1
    constructor
    · intro x hx
      rcases List.mem_append.1 hx with hx | hx
      · obtain ⟨q', h1, h2, h3⟩ := h.written x hx
        refine ⟨q', ?_, ?_, ?_⟩
        · rw [lookup_cons_ne _ _ _ _ (hna x hx)]; exact h1
        · rw [lookup_cons_ne _ _ _ _ (hfresh _ _ h2)]; exact h2
        · rcases h3 with h3 | h3
          · exact .inl h3
          · right; rw [lookup_cons_ne _ _ _ _ (hnew x hx)]; exact h3
      · simp only [List.mem_singleton] at hx
        subst hx
        exact ⟨_, lookup_cons_eq _ _ _, lookup_cons_eq _ _ _, .inl rfl⟩
    · intro p e hp
      by_cases e1 : p = w.p
      · exact ⟨w, by simp, e1.symm⟩
      · simp only [lookup_cons_ne _ _ _ _ e1] at hp
        obtain ⟨u, hu, hp⟩ := h.keys p e hp
        exact ⟨u, by simp [hu], hp⟩
    · intro a q' hq'
      by_cases e1 : a = w.a
      · subst e1
        simp only [lookup_cons_eq] at hq'
        injection hq' with hq'
        exact ⟨w, by simp, hq', rfl⟩
      · simp only [lookup_cons_ne _ _ _ _ e1] at hq'
        obtain ⟨u, hu, hp⟩ := h.targets a q' hq'
        exact ⟨u, by simp [hu], hp⟩

theorem runWrites_ok (ws : List (Wr P V)) (hd : (ws.map Wr.p).Nodup) (hc : Consistent ws) : WOk ws (runWrites ws) := by
  have key : ∀ (todo done : List (Wr P V)) (s : WSt P V), WOk done s → ((done ++ todo).map Wr.p).Nodup →
      Consistent (done ++ todo) →
      WOk (done ++ todo) (todo.foldl (fun s w => writeShared s w.p w.a w.v) s) := by
    intro todo
    induction todo with
    | nil => intro done s h _ _; simpa using h
    | cons w todo ih =>
      intro done s h hn hcc
      have e : done ++ w :: todo = (done ++ [w]) ++ todo := by simp
      rw [e] at hn hcc ⊢
      refine ih (done ++ [w]) _ (writeShared_ok h ?_ ?_) hn hcc
      · intro u hu he
        simp only [List.map_append, List.append_assoc, List.nodup_append] at hn
        exact hn.2.2 u.p (List.mem_map_of_mem hu) w.p (by simp) he
      · intro u hu he
        exact hcc u (by simp [hu]) w (by simp) he
  simpa [runWrites] using key ws [] ⟨[], []⟩ ⟨by simp, by simp [List.lookup], by simp [List.lookup]⟩ (by simpa using hd)
    (by simpa using hc)

theorem WOk.root {ws : List (Wr P V)} {s : WSt P V} (h : WOk ws s) (w : Wr P V) (hw : w ∈ ws) :
    s.ptr2pth.lookup w.a = some (refPathOf s.doc w.p) ∧ s.doc.lookup (refPathOf s.doc w.p) = some (.arr w.v) := by
  obtain ⟨q, h1, h2, h3⟩ := h.written w hw
  have : refPathOf s.doc w.p = q := by
    unfold refPathOf
    rcases h3 with h3 | h3
    · rw [h3, h2]
    · rw [h3]
  rw [this]
  exact ⟨h1, h2⟩

/-- different addresses, different roots -/
theorem WOk.root_inj {ws : List (Wr P V)} {s : WSt P V} (h : WOk ws s) (hd : (ws.map Wr.p).Nodup) {a b : Nat} {q : P}
    (ha : s.ptr2pth.lookup a = some q) (hb : s.ptr2pth.lookup b = some q) : a = b := by
  obtain ⟨u, hu, hup, hua⟩ := h.targets _ _ ha
  obtain ⟨v, hv, hvp, hva⟩ := h.targets _ _ hb
  have : u = v := by
    have hp : u.p = v.p := by rw [hup, hvp]
    clear hua hva hup hvp ha hb h
    induction ws with
    | nil => cases hu
    | cons x xs ih =>
      simp only [List.map_cons, List.nodup_cons] at hd
      rcases List.mem_cons.1 hu with h1 | h1 <;> rcases List.mem_cons.1 hv with h2 | h2
      · rw [h1, h2]
      · exact absurd (List.mem_map.2 ⟨v, h2, by rw [← hp, h1]⟩) hd.1
      · exact absurd (List.mem_map.2 ⟨u, h1, by rw [hp, h2]⟩) hd.1
      · exact ih hd.2 h1 h2
  rw [← hua, ← hva, this]

/-- what the reader has established after the reads `done` -/
structure ROk (doc : List (P × Entry P V)) (done : List (Nat × P)) (s : RSt P V) : Prop where
  stored : ∀ q y, s.pth2ssp.lookup q = some y → (∃ p, (y, p) ∈ done) ∧
    ∃ o v, s.vars y = some o ∧ doc.lookup q = some (.arr v) ∧ s.objs[o]? = some v
  inj : ∀ q q' y y', s.pth2ssp.lookup q = some y → s.pth2ssp.lookup q' = some y' → s.vars y = s.vars y' → q = q'
  read : ∀ x p, (x, p) ∈ done → ∃ y, s.pth2ssp.lookup (refPathOf doc p) = some y ∧ s.vars x = s.vars y

theorem readShared_ok {doc : List (P × Entry P V)} {done : List (Nat × P)} {s : RSt P V} (h : ROk doc done s)
    (x : Nat) (p : P) (hx : ∀ q, (x, q) ∉ done) (hp : ∃ v, doc.lookup (refPathOf doc p) = some (.arr v)) :
    ∃ s', readShared doc s x p = .ok s' ∧ ROk doc ((x, p) :: done) s' := by
  obtain ⟨v, hv⟩ := hp
  unfold readShared
  cases hl : s.pth2ssp.lookup (refPathOf doc p) with
  | some y =>
    simp only []
    refine ⟨_, rfl, ?_⟩
    have hne : ∀ q z, s.pth2ssp.lookup q = some z → z ≠ x := by
      rintro q z hz rfl
      obtain ⟨⟨p', hp'⟩, _⟩ := h.stored q z hz
      exact hx p' hp'
    refine ⟨?_, ?_, ?_⟩
    · intro q z hz
      obtain ⟨⟨p', hp'⟩, o, v', h1, h2, h3⟩ := h.stored q z hz
      exact ⟨⟨p', by simp [hp']⟩, o, v', by simp [hne q z hz, h1], h2, h3⟩
    · intro q q' z z' hz hz' he
      refine h.inj q q' z z' hz hz' ?_
      simpa [hne q z hz, hne q' z' hz'] using he
    · intro x' p' hm
      rcases List.mem_cons.1 hm with hm1 | hm1
      · injection hm1 with h1 h2
        subst h1 h2
        exact ⟨y, hl, by simp [hne _ _ hl]⟩
      · obtain ⟨z, h1, h2⟩ := h.read x' p' hm1
        have : x' ≠ x := by rintro rfl; exact hx p' hm1
        exact ⟨z, h1, by simp [this, hne _ _ h1, h2]⟩
  | none =>
    simp only [hv]
    refine ⟨_, rfl, ?_⟩
    have hne : ∀ q z, s.pth2ssp.lookup q = some z → z ≠ x := by
      rintro q z hz rfl
      obtain ⟨⟨p', hp'⟩, _⟩ := h.stored q z hz
      exact hx p' hp'
    have hold : ∀ q z, s.pth2ssp.lookup q = some z → s.vars z ≠ some s.objs.length := by
      intro q z hz he
      obtain ⟨_, o, v', h1, _, h3⟩ := h.stored q z hz
      rw [he] at h1
      injection h1 with h1
      subst h1
      rw [List.getElem?_eq_none (Nat.le_refl _)] at h3
      cases h3
    refine ⟨?_, ?_, ?_⟩
    · intro q z hz
      by_cases e : q = refPathOf doc p
      · subst e
        simp only [lookup_cons_eq] at hz
        injection hz with hz
        subst hz
        exact ⟨⟨p, by simp⟩, s.objs.length, v, by simp, hv, by simp⟩
      · simp only [lookup_cons_ne _ _ _ _ e] at hz
        obtain ⟨⟨p', hp'⟩, o, v', h1, h2, h3⟩ := h.stored q z hz
        refine ⟨⟨p', by simp [hp']⟩, o, v', by simp [hne q z hz, h1], h2, ?_⟩
        have : o < s.objs.length := (List.getElem?_eq_some_iff.1 h3).1
        simpa [List.getElem?_append_left this] using h3
    · intro q q' z z' hz hz' he
      by_cases e : q = refPathOf doc p <;> by_cases e' : q' = refPathOf doc p
      · rw [e, e']
      · subst e
        simp only [lookup_cons_eq] at hz
        injection hz with hz
        subst hz
        simp only [lookup_cons_ne _ _ _ _ e'] at hz'
        simp only [hne q' z' hz', if_true, if_false] at he
        exact absurd he.symm (hold q' z' hz')
      · subst e'
        simp only [lookup_cons_eq] at hz'
        injection hz' with hz'
        subst hz'
        simp only [lookup_cons_ne _ _ _ _ e] at hz
        simp only [hne q z hz, if_true, if_false] at he
        exact absurd he (hold q z hz)
      · simp only [lookup_cons_ne _ _ _ _ e] at hz
        simp only [lookup_cons_ne _ _ _ _ e'] at hz'
        refine h.inj q q' z z' hz hz' ?_
        simpa [hne q z hz, hne q' z' hz'] using he
    · intro x' p' hm
      rcases List.mem_cons.1 hm with hm1 | hm1
      · injection hm1 with h1 h2
        subst h1 h2
        exact ⟨x', lookup_cons_eq _ _ _, rfl⟩
      · obtain ⟨z, h1, h2⟩ := h.read x' p' hm1
        have hxx : x' ≠ x := by rintro rfl; exact hx p' hm1
        have e : refPathOf doc p' ≠ refPathOf doc p := by
          intro e; rw [e, hl] at h1; cases h1
        refine ⟨z, ?_, by simp [hxx, hne _ _ h1, h2]⟩
        rw [lookup_cons_ne _ _ _ _ e]; exact h1

theorem runReads_ok {doc : List (P × Entry P V)} : ∀ (rs : List (Nat × P)) (done : List (Nat × P)) (s : RSt P V),
    ROk doc done s → ((done.map Prod.fst).reverse ++ rs.map Prod.fst).Nodup →
    (∀ r ∈ rs, ∃ v, doc.lookup (refPathOf doc r.2) = some (.arr v)) →
    ∃ s', runReads doc rs s = .ok s' ∧ ROk doc (rs.reverse ++ done) s' := by
  intro rs
  induction rs with
  | nil => intro done s h _ _; exact ⟨s, rfl, by simpa using h⟩
  | cons r rs ih =>
    intro done s h hn hv
    obtain ⟨x, p⟩ := r
    have hx : ∀ q, (x, q) ∉ done := by
      intro q hq
      simp only [List.map_cons, List.nodup_append] at hn
      exact hn.2.2 x (by simp only [List.mem_reverse, List.mem_map]; exact ⟨_, hq, rfl⟩) x (by simp) rfl
    obtain ⟨s1, h1, h2⟩ := readShared_ok h x p hx (hv (x, p) (by simp))
    obtain ⟨s2, h3, h4⟩ := ih ((x, p) :: done) s1 h2 (by simpa using hn) (fun r hr => hv r (by simp [hr]))
    refine ⟨s2, ?_, by simpa using h4⟩
    simp only [runReads, h1, Res.ok_bind, h3]

end DNDSR.Ser
