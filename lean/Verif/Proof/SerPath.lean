import Verif.Spec.Serializer
import Verif.Proof.Defines
import Verif.Props.Defines

/-! # Lemmas for the paths of the JSON serializer -/

namespace DNDSR.Ser

open DNDSR.Defines

/-- names that can occur in a location -/
def Good (l : Loc) : Prop := ∀ n ∈ l, n ≠ [] ∧ '/' ∉ n

theorem constructPath_eq (l : Loc) : constructPath l = render l := by
  induction l with
  | nil => rfl
  | cons n ns ih => simp [constructPath, render, ih]

theorem render_cons (n : List Char) (ns : Loc) : render (n :: ns) = '/' :: joinWith '/' (n :: ns) := by
  induction ns generalizing n with
  | nil => simp [render, joinWith]
  | cons m ms ih =>
    have := ih m
    simp only [render, List.map_cons, List.flatten_cons] at this ⊢
    simp only [joinWith, List.cons_append] at this ⊢
    rw [this]

theorem render_join (l : Loc) : render l = joinWith '/' ([] :: l) := by
  cases l with
  | nil => rfl
  | cons n ns => rw [render_cons]; simp [joinWith]

theorem render_append (l m : Loc) : render (l ++ m) = render l ++ render m := by
  simp [render]

theorem good_append {l m : Loc} (hl : Good l) (hm : Good m) : Good (l ++ m) := by
  intro n hn
  rcases List.mem_append.1 hn with h | h
  · exact hl n h
  · exact hm n h

theorem filter_good (l : Loc) (h : Good l) : l.filter (fun q => decide (q ≠ [])) = l := by
  rw [List.filter_eq_self]
  intro a ha
  simpa using (h a ha).1

theorem pointerNames_render (l : Loc) (h : Good l) : pointerNames (render l) = l := by
  cases l with
  | nil => rfl
  | cons n ns =>
    rw [render_cons]
    simp only [pointerNames]
    exact splitSString_unique '/' _ (by simp) (fun p hp => (h p hp).2)

theorem splitClean_render (l : Loc) (h : Good l) : splitSStringClean (render l) '/' = l := by
  rw [render_join, splitSStringClean_spec '/' _ (by simp)]
  · simp only [List.filter_cons]
    simpa using filter_good l h
  · intro p hp
    rcases List.mem_cons.1 hp with rfl | hp
    · simp
    · exact (h p hp).2

theorem Parts.good {p parts} (h : Parts p parts) : Good (parts.filter (fun q => decide (q ≠ []))) := by
  intro n hn
  obtain ⟨h1, h2⟩ := List.mem_filter.1 hn
  exact ⟨by simpa using h2, h.noSlash n h1⟩

theorem Parts.exists (p : List Char) : ∃ parts, Parts p parts := by
  obtain ⟨h1, h2, h3⟩ := splitSString_spec p '/'
  exact ⟨_, h3, h2, h1.symm⟩

theorem Parts.split {p parts} (h : Parts p parts) : splitSString p '/' = parts := by
  rw [h.text]; exact splitSString_unique '/' _ h.ne h.noSlash

theorem Parts.unique {p a b} (ha : Parts p a) (hb : Parts p b) : a = b := by
  rw [← ha.split, ← hb.split]

theorem Parts.head {p parts} (h : Parts p parts) :
    (match parts with | [] => true | q :: _ => q.isEmpty) = true ↔ (p = [] ∨ p.head? = some '/') := by
  cases parts with
  | nil => exact absurd rfl h.ne
  | cons q qs =>
    have ht := h.text
    have hq := h.noSlash q (by simp)
    cases q with
    | nil =>
      cases qs with
      | nil => simp [ht, joinWith]
      | cons r rs => simp [ht, joinWith]
    | cons c cs =>
      have : p.head? = some c ∧ p ≠ [] := by
        cases qs <;> simp [ht, joinWith]
      simp only [List.isEmpty_cons, Bool.false_eq_true, this.1, this.2, false_or, Option.some.injEq, false_iff]
      rintro rfl
      simp at hq

theorem Parts.process {p parts} (h : Parts p parts) :
    processPath (splitSString p '/') =
      (parts.filter (fun q => decide (q ≠ [])), decide (p = [] ∨ p.head? = some '/')) := by
  rw [h.split]
  unfold processPath
  refine Prod.ext ?_ ?_
  · apply List.filter_congr
    intro x _
    cases x <;> simp
  · have := h.head
    rw [Bool.eq_iff_iff, decide_eq_true_eq]
    cases parts <;> exact this

theorem lands_exists (l : Loc) (p : List Char) : ∃ l', Lands l p l' := by
  obtain ⟨parts, h⟩ := Parts.exists p
  by_cases hp : p = [] ∨ p.head? = some '/'
  · exact ⟨_, .abs h hp⟩
  · simp only [not_or] at hp
    exact ⟨_, .rel h hp.1 hp.2⟩

theorem Lands.unique {l p a b} (ha : Lands l p a) (hb : Lands l p b) : a = b := by
  cases ha with
  | abs h1 h2 =>
    cases hb with
    | abs h3 _ => rw [h1.unique h3]
    | rel _ h4 h5 => rcases h2 with h2 | h2 <;> contradiction
  | rel h1 h2 h2' =>
    cases hb with
    | abs _ h4 => rcases h4 with h4 | h4 <;> contradiction
    | rel h3 _ _ => rw [h1.unique h3]

theorem Lands.good {l p l'} (h : Lands l p l') (hl : Good l) : Good l' := by
  cases h with
  | abs h1 _ => exact h1.good
  | rel h1 _ _ => exact good_append hl h1.good

/-- the concrete state stands at `l` -/
structure Stands (s : JSt) (l : Loc) : Prop where
  good : Good l
  split : s.split = l
  cP : s.cP = render l

theorem goToPath_eq {s l p l'} (hs : Stands s l) (h : Lands l p l') :
    goToPath s p = if l' ∈ s.objects then .ok { s with split := l', cP := render l' } else .abort := by
  have hg := h.good hs.good
  unfold goToPath
  cases h with
  | abs h1 h2 =>
    simp only [h1.process, h2, decide_true, if_true, constructPath_eq]
    rw [pointerNames_render _ h1.good]
    split
    · next hm => simp only [Res.assert, if_pos hm, Res.ok_bind]
    · next hm => simp only [Res.assert, if_neg hm, Res.abort_bind]
  | rel h1 h2 h3 =>
    have : ¬ (p = [] ∨ p.head? = some '/') := by simp [h2, h3]
    simp only [h1.process, this, decide_false, Bool.false_eq_true, if_false, constructPath_eq, hs.split]
    rw [pointerNames_render _ hg]
    split
    · next hm => simp only [Res.assert, if_pos hm, Res.ok_bind]
    · next hm => simp only [Res.assert, if_neg hm, Res.abort_bind]

theorem createPath_eq {s l p l'} (hs : Stands s l) (h : Lands l p l') :
    createPath s p = { s with objects := putObject s.objects l' } := by
  have hg := h.good hs.good
  unfold createPath
  cases h with
  | abs h1 h2 =>
    simp only [h1.process, h2, decide_true, if_true, constructPath_eq]
    rw [pointerNames_render _ h1.good]
  | rel h1 h2 h3 =>
    have : ¬ (p = [] ∨ p.head? = some '/') := by simp [h2, h3]
    simp only [h1.process, this, decide_false, Bool.false_eq_true, if_false, constructPath_eq, hs.cP]
    rw [← render_append, pointerNames_render _ hg]

theorem mem_putObject (os : List Loc) (l o : Loc) :
    o ∈ putObject os l ↔ o <+: l ∨ (o ∈ os ∧ ¬ l <+: o) := by
  unfold putObject
  simp only [List.mem_append, List.mem_map, List.mem_range, List.mem_filter, Bool.not_eq_true',
    Bool.eq_false_iff, ne_eq, List.isPrefixOf_iff_prefix]
  constructor
  · rintro (⟨k, _, rfl⟩ | h)
    · exact .inl (List.take_prefix _ _)
    · exact .inr h
  · rintro (h | h)
    · left
      refine ⟨o.length, ?_, ?_⟩
      · have := h.length_le; omega
      · exact (List.prefix_iff_eq_take.1 h).symm
    · exact .inr h

theorem history_stands {s l} (h : History s l) : Stands s l := by
  induction h with
  | start => exact ⟨by intro n hn; simp at hn, rfl, rfl⟩
  | create p _ ih =>
    obtain ⟨l', hl⟩ := lands_exists _ p
    rw [createPath_eq ih hl]
    exact ⟨ih.good, ih.split, ih.cP⟩
  | go p _ hg hl ih =>
    rw [goToPath_eq ih hl] at hg
    split at hg
    · injection hg with hg; subst hg
      exact ⟨hl.good ih.good, rfl, rfl⟩
    · cases hg

theorem lands_render (l cur : Loc) (h : Good l) : Lands cur (render l) l := by
  have hp : Parts (render l) ([] :: l) := by
    refine ⟨by simp, ?_, render_join l⟩
    intro q hq
    rcases List.mem_cons.1 hq with rfl | hq
    · simp
    · exact (h q hq).2
  have h2 : render l = [] ∨ (render l).head? = some '/' := by
    cases l with
    | nil => left; rfl
    | cons n ns => right; rw [render_cons]; rfl
  have := Lands.abs (cur := cur) hp h2
  have e : ([] :: l).filter (fun q => decide (q ≠ [])) = l := by
    simp only [List.filter_cons]
    simpa using filter_good l h
  rwa [e] at this

theorem rel_names_ne {p parts} (h : Parts p parts) (h1 : p ≠ []) (h2 : p.head? ≠ some '/') :
    parts.filter (fun q => decide (q ≠ [])) ≠ [] := by
  intro he
  have hh := h.head
  cases parts with
  | nil => exact h.ne rfl
  | cons q qs =>
    simp only [h1, h2, or_self, iff_false] at hh
    have : q ≠ [] := by simpa using hh
    simp [this] at he

theorem prog_run (pr : Prog) : ∀ (s : JSt) (l : Loc), pr.Relative → Stands s l → (l = [] ∨ l ∈ s.objects) →
    ∃ s', pr.run s = .ok s' ∧ Stands s' l ∧
      (∀ o, o ∈ s.objects → (¬ l <+: o ∨ o = l) → o ∈ s'.objects) ∧ (l ∈ s.objects → l ∈ s'.objects) ∧
      (∀ o, o ∈ s'.objects → ¬ l <+: o → o ∈ s.objects ∨ o <+: l) ∧ (pr ≠ .done → l ∈ s'.objects) := by
  induction pr with
  | done => 
    intro s l _ hs _
    exact ⟨s, rfl, hs, fun _ h _ => h, id, fun _ h _ => .inl h, fun h => absurd rfl h⟩
  | block n inner rest ihi ihr =>
    intro s l hrel hs hex
    obtain ⟨hn1, hn2, hri, hrr⟩ := hrel
    obtain ⟨parts, hparts⟩ := Parts.exists n
    have hl := Lands.rel (cur := l) hparts hn1 hn2
    have hne := rel_names_ne hparts hn1 hn2
    revert hl hne
    generalize hnm : parts.filter (fun q => decide (q ≠ [])) = nm
    intro hl hne
    have hgood := hl.good hs.good
    have hc := createPath_eq hs hl
    generalize hs1 : createPath s n = s1 at hc
    have hst1 : Stands s1 l := by subst hc; exact ⟨hs.good, hs.split, hs.cP⟩
    have hobj1 : s1.objects = putObject s.objects (l ++ nm) := by rw [hc]
    have hgo := goToPath_eq hst1 hl
    rw [if_pos (by rw [hobj1, mem_putObject]; exact .inl (List.prefix_rfl))] at hgo
    generalize hs2 : ({ s1 with split := l ++ nm, cP := render (l ++ nm) } : JSt) = s2 at hgo
    have hst2 : Stands s2 (l ++ nm) := by subst hs2; exact ⟨hgood, rfl, rfl⟩
    have hobj2 : s2.objects = s1.objects := by subst hs2; rfl
    obtain ⟨s3, hr3, hst3, hk3, _, hb3, _⟩ := ihi s2 (l ++ nm) hri hst2
      (.inr (by rw [hobj2, hobj1, mem_putObject]; exact .inl (List.prefix_rfl)))
    have hnp : ¬ (l ++ nm) <+: l := by
      intro h
      have := h.length_le
      cases nm with
      | nil => exact hne rfl
      | cons a b => simp at this; omega
    have hl3 : l ∈ s3.objects :=
      hk3 l (by rw [hobj2, hobj1, mem_putObject]; exact .inl (List.prefix_append _ _)) (.inl hnp)
    have hback := goToPath_eq hst3 (lands_render l (l ++ nm) hs.good)
    rw [if_pos hl3] at hback
    generalize hs4 : ({ s3 with split := l, cP := render l } : JSt) = s4 at hback
    have hst4 : Stands s4 l := by subst hs4; exact ⟨hs.good, rfl, rfl⟩
    have hobj4 : s4.objects = s3.objects := by subst hs4; rfl
    obtain ⟨s5, hr5, hst5, hk5, hl5, hb5, _⟩ := ihr s4 l hrr hst4 (.inr (by rw [hobj4]; exact hl3))
    refine ⟨s5, ?_, hst5, ?_, ?_, ?_, ?_⟩
    · simp only [Prog.run, getCurrentPath, hs1, hgo, Res.ok_bind, hr3, hs.cP, hback, hr5]
    · intro o ho hno
      apply hk5 o ?_ hno
      rw [hobj4]
      by_cases hp : o <+: l ++ nm ∧ o ≠ l ++ nm
      · refine hk3 o ?_ ?_
        · rw [hobj2, hobj1, mem_putObject]; exact .inl hp.1
        · left; intro h
          apply hp.2
          exact List.IsPrefix.eq_of_length_le hp.1 h.length_le
      · have hno' : ¬ (l ++ nm) <+: o := by
          intro h
          rcases hno with hno | hno
          · exact hno ((List.prefix_append l nm).trans h)
          · subst hno; exact hnp h
        refine hk3 o ?_ (.inl hno')
        rw [hobj2, hobj1, mem_putObject]
        exact .inr ⟨ho, hno'⟩
    · intro _; exact hl5 (by rw [hobj4]; exact hl3)
    · intro o ho hno
      rcases hb5 o ho hno with h | h
      · rw [hobj4] at h
        have hno' : ¬ (l ++ nm) <+: o := fun h' => hno ((List.prefix_append l nm).trans h')
        rcases hb3 o h hno' with h | h
        · rw [hobj2, hobj1, mem_putObject] at h
          rcases h with h | h
          · rcases List.prefix_or_prefix_of_prefix h (List.prefix_append l nm) with h | h
            · exact .inr h
            · exact absurd h hno
          · exact .inl h.1
        · rcases List.prefix_or_prefix_of_prefix h (List.prefix_append l nm) with h | h
          · exact .inr h
          · exact absurd h hno
      · exact .inr h
    · intro _; exact hl5 (by rw [hobj4]; exact hl3)

end DNDSR.Ser
