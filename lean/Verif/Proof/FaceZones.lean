import Verif.Spec.FaceZones
import Verif.Proof.FluxOrient

/-! Helper lemmas for `Verif.Props.FaceZones`: the loop over the boundary elements of one rank. -/

namespace DNDSR.Faces

open DNDSR.Elem DNDSR.IMap DNDSR.MeshAdj DNDSR.Part
open DNDSR.Per (isPeriodic)

/-- an entry of `cell2face` the element is not on -/
def Miss (faces : List Face) (b : BndRow) (v : Int) : Prop :=
  v < 0 ∨ (0 ≤ v ∧ ∃ f, at64 faces v = .ok f ∧ sortIdx b.nodes ≠ sortIdx f.slot.nodes)

/-- an entry of `cell2face` the element is on -/
def Hit (faces : List Face) (b : BndRow) (v : Int) : Prop :=
  0 ≤ v ∧ ∃ f, at64 faces v = .ok f ∧ sortIdx b.nodes = sortIdx f.slot.nodes

/-- which own face every element is on -/
structure Targets (nOwn : Nat) (faces : List Face) (c2f : List (List Int)) (bnds : List BndRow) (T : Nat → Nat → Prop) : Prop where
  one : ∀ (k : Nat) (b : BndRow), bnds[k]? = some b → ∃ row, at64 c2f b.cell = .ok row ∧
    ((∃ j q : Nat, T k q ∧ q < faces.length ∧ row[j]? = some (q : Int) ∧ Hit faces b q ∧
        ∀ (j' : Nat) (v : Int), row[j']? = some v → j' ≠ j → Miss faces b v) ∨
     ((∀ v ∈ row, Miss faces b v) ∧ (∀ q, ¬ T k q) ∧ isPeriodic b.info.zone = true))
  fn : ∀ k q q', T k q → T k q' → q = q'
  dup : ∀ (k k' q : Nat) (b : BndRow), T k q → T k' q → k ≠ k' → bnds[k]? = some b → isPeriodic b.info.zone = true
  zone : ∀ (k : Nat) (b : BndRow), bnds[k]? = some b → isExternal b.info.zone = true ∨ isPeriodic b.info.zone = true
  own : ∀ (k : Nat) (b : BndRow), bnds[k]? = some b → b.cell < nOwn

/-- after the first `n` elements -/
structure ZInv (faces : List Face) (bnds : List BndRow) (T : Nat → Nat → Prop) (n : Nat) (s : ZSt) : Prop where
  lenI : s.info.length = faces.length
  lenB : s.bnd2face.length = bnds.length
  lenF : s.face2bnd.length = faces.length
  free : ∀ (q : Nat) (f : Face), faces[q]? = some f → s.face2bnd[q]? = some none → (∀ k, k < n → ¬ T k q) ∧ s.info[q]? = some ⟨f.slot.type, 0⟩
  taken : ∀ q k : Nat, s.face2bnd[q]? = some (some k) → k < n ∧ T k q ∧ ∃ b, bnds[k]? = some b ∧ s.info[q]? = some b.info ∧
    s.bnd2face[k]? = some (q : Int) ∧ ∀ (k' : Nat) (b' : BndRow), k' < n → T k' q → bnds[k']? = some b' → b.cell ≤ b'.cell
  b2f : ∀ (k : Nat) (v : Int), s.bnd2face[k]? = some v → v = -1 ∨ ∃ q : Nat, v = q ∧ T k q ∧ k < n

variable {nOwn : Nat} {faces : List Face} {c2f : List (List Int)} {bnds : List BndRow} {T : Nat → Nat → Prop}

theorem bndSlots_miss {iBnd : Nat} {b : BndRow} : ∀ (row : List Int) (s : ZSt) (found : Bool), (∀ v ∈ row, Miss faces b v) →
    bndSlots nOwn faces bnds iBnd b s found row = .ok (s, found) := by
  intro row
  induction row with
  | nil => intros; rfl
  | cons v vs ih =>
    intro s found h
    rw [bndSlots]
    rcases h v (by simp) with h0 | ⟨h0, f, ef, hne⟩
    · rw [if_pos h0]; exact ih s found (fun w hw => h w (by simp [hw]))
    · rw [if_neg (by omega), ef, Res.ok_bind, if_neg hne]
      exact ih s found (fun w hw => h w (by simp [hw]))

theorem bndSlots_hit {iBnd : Nat} {b : BndRow} : ∀ (row : List Int) (j : Nat) (u : Int) (s s' : ZSt) (found hit : Bool), row[j]? = some u → Hit faces b u →
    (∀ (j' : Nat) (v : Int), row[j']? = some v → j' ≠ j → Miss faces b v) → putBnd nOwn bnds iBnd b u s = .ok (s', hit) →
    bndSlots nOwn faces bnds iBnd b s found row = .ok (s', found || hit) := by
  intro row
  induction row with
  | nil => intro j u s s' found hit h; simp at h
  | cons v vs ih =>
    intro j u s s' found hit hj hu hm hp
    cases j with
    | zero =>
      simp only [List.getElem?_cons_zero, Option.some.injEq] at hj
      subst hj
      obtain ⟨h0, f, ef, he⟩ := hu
      rw [bndSlots, if_neg (by omega), ef, Res.ok_bind, if_pos he, hp, Res.ok_bind]
      simp only
      refine bndSlots_miss _ _ _ ?_
      intro w hw
      obtain ⟨p, hp⟩ := List.mem_iff_getElem?.1 hw
      exact hm (p + 1) w (by simpa using hp) (by omega)
    | succ j =>
      have ht := ih j u s s' found hit (by simpa using hj) hu (fun j' w h hne => hm (j' + 1) w (by simpa using h) (by omega)) hp
      rw [bndSlots]
      rcases hm 0 v (by simp) (by omega) with h0 | ⟨h0, f, ef, hne⟩
      · rw [if_pos h0]; exact ht
      · rw [if_neg (by omega), ef, Res.ok_bind, if_neg hne]; exact ht

theorem inv_skip {n : Nat} {s : ZSt} (h : ZInv faces bnds T n s) (hT : ∀ q, T n q → ∃ k b bn, s.face2bnd[q]? = some (some k) ∧ bnds[k]? = some b ∧
    bnds[n]? = some bn ∧ b.cell ≤ bn.cell) : ZInv faces bnds T (n + 1) s := by
  refine ⟨h.lenI, h.lenB, h.lenF, ?_, ?_, ?_⟩
  · intro q f hf hq
    obtain ⟨h1, h2⟩ := h.free q f hf hq
    refine ⟨fun k hk hTk => ?_, h2⟩
    by_cases hkn : k = n
    · subst hkn
      obtain ⟨k', _, _, e, _⟩ := hT q hTk
      rw [hq] at e; cases e
    · exact h1 k (by omega) hTk
  · intro q k hq
    obtain ⟨h1, h2, b, hb, h3, h4, h5⟩ := h.taken q k hq
    refine ⟨by omega, h2, b, hb, h3, h4, ?_⟩
    intro k' b' hk' hT' hb'
    by_cases hkn : k' = n
    · subst hkn
      obtain ⟨k2, b2, bn, e, e2, e3, hle⟩ := hT q hT'
      rw [hq] at e; cases e
      rw [hb] at e2; cases e2
      rw [hb'] at e3; cases e3
      exact hle
    · exact h5 k' b' (by omega) hT' hb'
  · intro k v hv
    rcases h.b2f k v hv with e | ⟨q, e1, e2, e3⟩
    · exact Or.inl e
    · exact Or.inr ⟨q, e1, e2, by omega⟩

theorem inv_put {n q : Nat} {s : ZSt} {b : BndRow} (hG : Targets nOwn faces c2f bnds T) (h : ZInv faces bnds T n s) (hb : bnds[n]? = some b)
    (hT : T n q) (hq : q < faces.length)
    (hle : ∀ k b', s.face2bnd[q]? = some (some k) → bnds[k]? = some b' → b.cell ≤ b'.cell) :
    ZInv faces bnds T (n + 1) ⟨s.info.set q b.info, s.bnd2face.set n (q : Int), s.face2bnd.set q (some n)⟩ := by
  have hn : n < bnds.length := (List.getElem?_eq_some_iff.1 hb).1
  refine ⟨by simpa using h.lenI, by simpa using h.lenB, by simpa using h.lenF, ?_, ?_, ?_⟩
  · intro q' f hf hq'
    by_cases e : q = q'
    · subst e
      rw [List.getElem?_set_self (by rw [h.lenF]; exact hq)] at hq'
      cases hq'
    · simp only [List.getElem?_set_ne e] at hq' ⊢
      obtain ⟨h1, h2⟩ := h.free q' f hf hq'
      refine ⟨fun k hk hTk => ?_, h2⟩
      by_cases hkn : k = n
      · subst hkn; exact e (hG.fn _ _ _ hT hTk)
      · exact h1 k (by omega) hTk
  · intro q' k hq'
    by_cases e : q = q'
    · subst e
      rw [List.getElem?_set_self (by rw [h.lenF]; exact hq)] at hq'
      have : n = k := by simpa using hq'
      subst this
      refine ⟨by omega, hT, b, hb, by rw [List.getElem?_set_self (by rw [h.lenI]; exact hq)], by rw [List.getElem?_set_self (by rw [h.lenB]; exact hn)], ?_⟩
      intro k' b' hk' hT' hb'
      by_cases hkn : k' = n
      · subst hkn; rw [hb] at hb'; cases hb'; omega
      · have hfl : q < s.face2bnd.length := by rw [h.lenF]; exact hq
        cases hc : s.face2bnd[q] with
        | none =>
          have := (h.free q _ (List.getElem?_eq_getElem hq) (by rw [List.getElem?_eq_getElem hfl, hc])).1 k' (by omega)
          exact absurd hT' this
        | some k2 =>
          have hs : s.face2bnd[q]? = some (some k2) := by rw [List.getElem?_eq_getElem hfl, hc]
          obtain ⟨_, _, b2, hb2, _, _, h5⟩ := h.taken q k2 hs
          have := hle k2 b2 hs hb2
          have := h5 k' b' (by omega) hT' hb'
          omega
    · simp only [List.getElem?_set_ne e] at hq' ⊢
      obtain ⟨h1, h2, b2, hb2, h3, h4, h5⟩ := h.taken q' k hq'
      refine ⟨by omega, h2, b2, hb2, h3, ?_, ?_⟩
      · rw [List.getElem?_set_ne (by omega)]; exact h4
      intro k' b' hk' hT' hb'
      by_cases hkn : k' = n
      · subst hkn; exact absurd (hG.fn _ _ _ hT hT') e
      · exact h5 k' b' (by omega) hT' hb'
  · intro k v hv
    by_cases e : n = k
    · subst e
      rw [List.getElem?_set_self (by rw [h.lenB]; exact hn)] at hv
      cases hv
      exact Or.inr ⟨q, rfl, hT, by omega⟩
    · rw [List.getElem?_set_ne e] at hv
      rcases h.b2f k v hv with e | ⟨q', e1, e2, e3⟩
      · exact Or.inl e
      · exact Or.inr ⟨q', e1, e2, by omega⟩

theorem bndStep_spec (hG : Targets nOwn faces c2f bnds T) {n : Nat} {s : ZSt} (h : ZInv faces bnds T n s) {b : BndRow} (hb : bnds[n]? = some b) :
    ∃ s', bndStep nOwn faces c2f bnds n b s = .ok s' ∧ ZInv faces bnds T (n + 1) s' := by
  obtain ⟨row, er, hr⟩ := hG.one n b hb
  rw [bndStep, er, Res.ok_bind]
  rcases hr with ⟨j, q, hT, hq, hj, hhit, hmiss⟩ | ⟨hmiss, hno, hper⟩
  · have hfl : q < s.face2bnd.length := by rw [h.lenF]; exact hq
    obtain ⟨o, eo, eo'⟩ := at64_eq (l := s.face2bnd) (v := (q : Int)) (by omega) (by omega)
    rw [Int.toNat_natCast] at eo'
    have hput : ∀ st, stays nOwn bnds b o = .ok st → st = false → putBnd nOwn bnds n b q s =
        .ok (⟨s.info.set q b.info, s.bnd2face.set n (q : Int), s.face2bnd.set q (some n)⟩, true) := by
      intro st h1 h2
      subst h2
      rw [putBnd, eo, Res.ok_bind, h1, Res.ok_bind, if_neg (by decide), Res.assert_true _ (hG.zone n b hb), Res.ok_bind, Int.toNat_natCast]
    cases o with
    | none =>
      have hp := hput false rfl rfl
      rw [bndSlots_hit row j q s _ false true hj hhit hmiss hp]
      refine ⟨_, by simp only [Res.ok_bind]; rw [Res.assert_true _ (Or.inl (show (false || true) = true from rfl)), Res.ok_bind], inv_put hG h hb hT hq ?_⟩
      intro k b' hk; rw [eo'] at hk; cases hk
    | some k =>
      obtain ⟨hk, hTk, b2, hb2, _, _, _⟩ := h.taken q k eo'
      have hper := hG.dup n k q b hT hTk (by omega) hb
      have hst : stays nOwn bnds b (some k) = .ok (decide (b.cell > b2.cell)) := by
        rw [stays, Res.assert_true _ hper, Res.ok_bind, (idx_ok_iff _ _ _).2 hb2, Res.ok_bind, Res.assert_true _ (hG.own n b hb), Res.ok_bind,
          Res.assert_true _ (hG.own k b2 hb2), Res.ok_bind]
      by_cases hlt : b.cell > b2.cell
      · have hp : putBnd nOwn bnds n b q s = .ok (s, false) := by
          rw [putBnd, eo, Res.ok_bind, hst, Res.ok_bind, if_pos (by simpa using hlt)]
        rw [bndSlots_hit row j q s _ false false hj hhit hmiss hp]
        refine ⟨s, by simp only [Res.ok_bind]; rw [Res.assert_true _ (Or.inr hper), Res.ok_bind], inv_skip h ?_⟩
        intro q' hq'
        rw [← hG.fn _ _ _ hT hq']
        exact ⟨k, b2, b, eo', hb2, hb, by omega⟩
      · have hp := hput _ hst (by simpa using hlt)
        rw [bndSlots_hit row j q s _ false true hj hhit hmiss hp]
        refine ⟨_, by simp only [Res.ok_bind]; rw [Res.assert_true _ (Or.inl (show (false || true) = true from rfl)), Res.ok_bind], inv_put hG h hb hT hq ?_⟩
        intro k' b' hk' hb'; rw [eo'] at hk'; cases hk'
        rw [hb2] at hb'; cases hb'; omega
  · rw [bndSlots_miss _ _ _ hmiss]
    refine ⟨s, by simp only [Res.ok_bind]; rw [Res.assert_true _ (Or.inr hper), Res.ok_bind], inv_skip h ?_⟩
    intro q hq; exact absurd hq (hno q)

theorem bndLoop_spec (hG : Targets nOwn faces c2f bnds T) : ∀ (bs : List BndRow) (n : Nat) (s : ZSt), bnds.drop n = bs → n ≤ bnds.length →
    ZInv faces bnds T n s → ∃ s', bndLoop nOwn faces c2f bnds n s bs = .ok s' ∧ ZInv faces bnds T bnds.length s' := by
  intro bs
  induction bs with
  | nil =>
    intro n s hd hn h
    have : n = bnds.length := by have := List.drop_eq_nil_iff.1 hd; omega
    subst this
    exact ⟨s, rfl, h⟩
  | cons b bs ih =>
    intro n s hd hn h
    have hb : bnds[n]? = some b := by
      have := congrArg (fun l => l[0]?) hd
      simpa using this
    have hd' : bnds.drop (n + 1) = bs := by
      have := congrArg List.tail hd
      simpa using this
    obtain ⟨s1, e1, h1⟩ := bndStep_spec hG h hb
    obtain ⟨s2, e2, h2⟩ := ih (n + 1) s1 hd' (by have := (List.getElem?_eq_some_iff.1 hb).1; omega) h1
    exact ⟨s2, by rw [bndLoop, e1, Res.ok_bind, e2], h2⟩

theorem putBnds_spec {p : Interp} (hG : Targets nOwn p.faces p.c2f bnds T) :
    ∃ s, putBnds nOwn p bnds = .ok s ∧ ZInv p.faces bnds T bnds.length s := by
  refine bndLoop_spec hG bnds 0 _ rfl (by omega) ⟨by simp, by simp, by simp, ?_, ?_, ?_⟩
  · intro q f hf _
    exact ⟨fun k hk => by omega, by simp [hf]⟩
  · intro q k hq
    simp only [List.getElem?_replicate] at hq
    split at hq <;> simp at hq
  · intro k v hv
    simp only [List.getElem?_replicate] at hv
    split at hv
    · exact Or.inl (by simpa using hv.symm)
    · simp at hv

end DNDSR.Faces
