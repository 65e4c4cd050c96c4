import Verif.Proof.DofVec

/-!
# Vectors over the cells of all ranks (C88)
-/

namespace DNDSR.Dof

open DNDSR.IMap
open Matrix

variable {n m : Nat} {L : Layout}

theorem idx_some {α : Type} {l : List α} {k : Nat} {x : α} (h : l[k]? = some x) : idx l k = .ok x := by rw [idx, h]

theorem Holds.at_ {s : Store n} {w : Whole n} (h : Holds L s w) {k : Nat} (hk : k < s.vecs.length) : ∃ v, s.vecs[k]? = some v ∧ Shape L v ∧ glob v = w.vec k := by
  refine ⟨s.vecs[k], List.getElem?_eq_getElem hk, h.shape _ (List.getElem_mem hk), ?_⟩
  rw [Whole.vec, ← h.vecs, List.getD_eq_getElem?_getD, List.getElem?_map, List.getElem?_eq_getElem hk]
  rfl

/-- the new contents of place `d` -/
theorem Holds.set_ {s : Store n} {w : Whole n} (h : Holds L s w) {d : Nat} {u : List (Part n)} (hs : Shape L u) {fresh : Nat → Prop}
    (hf : ∀ k, k ≠ d → fresh k → w.fresh k) (hd : d < s.vecs.length → fresh d → Fresh L u) : Holds L ⟨s.vecs.set d u, s.out⟩ ⟨w.vecs.set d (glob u), w.out, fresh⟩ where
  shape := by
    intro v hv
    rcases List.mem_or_eq_of_mem_set hv with h' | rfl
    · exact h.shape v h'
    · exact hs
  vecs := by
    show (s.vecs.set d u).map glob = _
    rw [List.map_set, h.vecs]
  out := h.out
  fresh := by
    intro k v hv fk
    have hv' : (s.vecs.set d u)[k]? = some v := hv
    rw [List.getElem?_set] at hv'
    by_cases e : d = k
    · rw [if_pos e] at hv'
      subst e
      by_cases hlt : d < s.vecs.length
      · rw [if_pos hlt] at hv'
        rw [← Option.some.inj hv']
        exact hd hlt fk
      · rw [if_neg hlt] at hv'
        cases hv'
    · rw [if_neg e] at hv'
      exact h.fresh k v hv' (hf k (Ne.symm e) fk)

theorem each_result (f : Each n) : f.body = f.result := by
  funext u
  cases f <;> first | rfl | exact funext fun c => mul_comm _ _

theorem both_result (f : Both) : (f.body : Row n → Row n → Row n) = f.result := by
  funext u v
  cases f <;> rfl

/-- **C88, one operation** does to the whole vectors what it says, whatever the number of ranks and the copies, and keeps copies up to date where those of its arguments are. -/
theorem step_holds (hL : L.Ok) {s : Store n} {w : Whole n} (h : Holds L s w) (i : Instr n) (hi : i.Uses s.vecs.length) :
    ∃ s', step (L.map (·.2)) s i = .ok s' ∧ Holds L s' (w.step i) ∧ s'.vecs.length = s.vecs.length := by
  cases i with
  | each d f =>
    obtain ⟨v, e, hs, g⟩ := h.at_ hi
    refine ⟨_, by rw [step, idx_some e, Res.ok_bind], ?_, by simp⟩
    have := h.set_ (d := d) (shape_each f hs) (fresh := w.fresh) (fun k _ fk => fk) (fun _ fd => fresh_each f (h.fresh d v e fd))
    rw [glob_each, g, each_result] at this
    exact this
  | both d a f =>
    obtain ⟨v, e, hs, g⟩ := h.at_ hi.1
    obtain ⟨v', e', hs', g'⟩ := h.at_ hi.2
    have hal := alike_of hs hs'
    refine ⟨_, by rw [step, idx_some e, Res.ok_bind, idx_some e', Res.ok_bind, ranks_zip (both_eq f.body) hal, Res.ok_bind], ?_, by simp⟩
    have := h.set_ (d := d) (shape_zip f.body hs hs') (fresh := fun k => if k = d then w.fresh d ∧ w.fresh a else w.fresh k)
      (fun k hk fk => by simpa [hk] using fk) (fun _ fd => by
        have fd : w.fresh d ∧ w.fresh a := by simpa using fd
        exact fresh_zip f.body hs hs' (h.fresh d v e fd.1) (h.fresh a v' e' fd.2))
    rw [glob_zip _ hal, g, g', both_result] at this
    exact this
  | copy d a =>
    obtain ⟨v, e, hs, g⟩ := h.at_ hi.1
    obtain ⟨v', e', hs', g'⟩ := h.at_ hi.2
    have hal := alike_of hs hs'
    have hc : ∀ k, forRanks (fun _ (x : Part n × Part n) => Part.copy x.1 x.2) k (v.zip v') = .ok v' := by
      clear e e' hs hs' g g'
      unfold Alike at hal
      induction hal with
      | nil => intro k; rfl
      | @cons p q v w hpq _ ih =>
        intro k
        rw [List.zip_cons_cons, forRanks, copy_eq p q hpq.1 hpq.2, Res.ok_bind, ih, Res.ok_bind]
    refine ⟨_, by rw [step, idx_some e, Res.ok_bind, idx_some e', Res.ok_bind, hc, Res.ok_bind], ?_, by simp⟩
    have := h.set_ (d := d) hs' (fresh := fun k => if k = d then w.fresh a else w.fresh k)
      (fun k hk fk => by simpa [hk] using fk) (fun _ fd => h.fresh a v' e' (by simpa using fd))
    rw [g'] at this
    exact this
  | addTo d a r =>
    obtain ⟨v, e, hs, g⟩ := h.at_ hi.1
    obtain ⟨v', e', hs', g'⟩ := h.at_ hi.2
    have hal := alike_of hs hs'
    refine ⟨_, by rw [step, idx_some e, Res.ok_bind, idx_some e', Res.ok_bind, ranks_zip (op := fun p q => Part.addTo p q r) (fun p q => addTo_eq p q r) hal, Res.ok_bind], ?_, by simp⟩
    have := h.set_ (d := d) (shape_zip (fun u w => u + r • w) hs hs') (fresh := fun k => if k = d then w.fresh d ∧ w.fresh a else w.fresh k)
      (fun k hk fk => by simpa [hk] using fk) (fun _ fd => by
        have fd : w.fresh d ∧ w.fresh a := by simpa using fd
        exact fresh_zip _ hs hs' (h.fresh d v e fd.1) (h.fresh a v' e' fd.2))
    rw [glob_zip _ hal, g, g'] at this
    exact this
  | pull d =>
    obtain ⟨v, e, hs, g⟩ := h.at_ hi
    obtain ⟨u, eu, hu, gu, fu⟩ := pull_ok hL hs
    refine ⟨_, by rw [step, idx_some e, Res.ok_bind, eu, Res.ok_bind], ?_, by simp⟩
    have := h.set_ (d := d) hu (fresh := fun k => k = d ∨ w.fresh k) (fun k hk fk => by simpa [hk] using fk) (fun _ _ => fu)
    have hw : w.vecs.set d (glob u) = w.vecs := by
      rw [gu]
      refine List.ext_getElem? fun k => ?_
      rw [List.getElem?_set]
      split
      · rename_i ek
        subst ek
        rw [← h.vecs, List.getElem?_map, e]
        simp only [List.length_map, Option.map_some]
        rw [if_pos (List.getElem?_eq_some_iff.1 e).1]
      · rfl
    rw [hw] at this
    exact this
  | dot a b mL mR =>
    obtain ⟨v, e, hs, g⟩ := h.at_ hi.1
    obtain ⟨v', e', hs', g'⟩ := h.at_ hi.2
    refine ⟨⟨s.vecs, _ :: s.out⟩, by rw [step, idx_some e, Res.ok_bind, idx_some e', Res.ok_bind, dot_eq mL mR (alike_of hs hs'), Res.ok_bind], ?_, rfl⟩
    exact ⟨h.shape, h.vecs, by rw [g, g', h.out]; rfl, h.fresh⟩
  | norm2 a =>
    obtain ⟨v, e, hs, g⟩ := h.at_ hi
    refine ⟨⟨s.vecs, Dof.norm2 v :: s.out⟩, by rw [step, idx_some e, Res.ok_bind], ?_, rfl⟩
    exact ⟨h.shape, h.vecs, by rw [norm2_eq, g, h.out]; rfl, h.fresh⟩
  | norm1 a =>
    obtain ⟨v, e, hs, g⟩ := h.at_ hi
    refine ⟨⟨s.vecs, List.ofFn (Dof.norm1 v) ++ s.out⟩, by rw [step, idx_some e, Res.ok_bind], ?_, rfl⟩
    refine ⟨h.shape, h.vecs, ?_, h.fresh⟩
    have : Dof.norm1 v = fun c => ((w.vec a).map fun u => |u c|).sum := by
      funext c
      rw [norm1_eq, g]
    rw [this, h.out]
    rfl
  | min a =>
    obtain ⟨v, e, hs, g⟩ := h.at_ hi
    refine ⟨⟨s.vecs, List.ofFn (Dof.minimum v) ++ s.out⟩, by rw [step, idx_some e, Res.ok_bind], ?_, rfl⟩
    refine ⟨h.shape, h.vecs, ?_, h.fresh⟩
    have : Dof.minimum v = fun c => ((w.vec a).map fun u => u c).foldr Min.min veryLarge := by
      funext c
      rw [minimum_eq, g]
    rw [this, h.out]
    rfl

/-- **C88** Whatever a solver does with its vectors, in whatever order and depending on whatever it has computed, for any number of steps, any number of ranks, any cells on them and any copies: every operation
returns, the vectors are those the whole-mesh operations give, all reductions return (on every rank) the numbers of the whole vectors, and copies stay up to date as `Whole.step` says. -/
theorem vectors (hL : L.Ok) (prog : List ℝ → Instr n) : ∀ (k : Nat) (s : Store n) (w : Whole n), Holds L s w → (∀ out, (prog out).Uses s.vecs.length) →
    ∃ s', run (L.map (·.2)) prog k s = .ok s' ∧ Holds L s' (w.run prog k)
  | 0, s, w, h, _ => ⟨s, rfl, h⟩
  | k + 1, s, w, h, hu => by
    obtain ⟨s1, e1, h1, l1⟩ := step_holds hL h (prog s.out) (hu _)
    obtain ⟨s', e', h'⟩ := vectors hL prog k s1 _ h1 (fun out => by rw [l1]; exact hu out)
    refine ⟨s', by rw [run, e1, Res.ok_bind, e'], ?_⟩
    rw [h.out] at h'
    exact h'

/-- **C88, partitions** The same program on the same vectors, spread in two ways, computes the same numbers and the same vectors. -/
theorem same_on_any_ranks {L' : Layout} (hL : L.Ok) (hL' : L'.Ok) (prog : List ℝ → Instr n) (k : Nat) (s s' : Store n) (hs : ∀ v ∈ s.vecs, Shape L v) (hs' : ∀ v ∈ s'.vecs, Shape L' v)
    (hv : s.vecs.map glob = s'.vecs.map glob) (ho : s.out = s'.out) (hu : ∀ out, (prog out).Uses s.vecs.length) :
    ∃ t t', run (L.map (·.2)) prog k s = .ok t ∧ run (L'.map (·.2)) prog k s' = .ok t' ∧ t.vecs.map glob = t'.vecs.map glob ∧ t.out = t'.out := by
  have hl : s'.vecs.length = s.vecs.length := by simpa using (congrArg List.length hv).symm
  obtain ⟨t, e, h⟩ := vectors hL prog k s ⟨s.vecs.map glob, s.out, fun _ => False⟩ ⟨hs, rfl, rfl, fun _ _ _ h => h.elim⟩ hu
  obtain ⟨t', e', h'⟩ := vectors hL' prog k s' ⟨s.vecs.map glob, s.out, fun _ => False⟩ ⟨hs', hv.symm, ho.symm, fun _ _ _ h => h.elim⟩ (fun out => by rw [hl]; exact hu out)
  exact ⟨t, t', e, e', h.vecs.trans h'.vecs.symm, h.out.trans h'.out.symm⟩

/-- **C88, the minimum** is a lower bound of all entries, and one of them unless all exceed `3e200`. -/
theorem minimum_spec (v : List (Part n)) (c : Fin n) : (∀ u ∈ glob v, minimum v c ≤ u c) ∧ minimum v c ≤ veryLarge ∧ (minimum v c = veryLarge ∨ ∃ u ∈ glob v, minimum v c = u c) := by
  rw [minimum_eq]
  induction glob v with
  | nil => exact ⟨by simp, le_rfl, Or.inl rfl⟩
  | cons u l ih =>
    rw [List.map_cons, List.foldr_cons]
    refine ⟨fun x hx => ?_, (min_le_right _ _).trans ih.2.1, ?_⟩
    · rcases List.mem_cons.1 hx with rfl | hx
      · exact min_le_left _ _
      · exact (min_le_right _ _).trans (ih.1 x hx)
    · rcases min_choice (u c) ((l.map fun u => u c).foldr min veryLarge) with h | h
      · exact Or.inr ⟨u, by simp, h⟩
      · rw [h]
        rcases ih.2.2 with h' | ⟨x, hx, h'⟩
        · exact Or.inl h'
        · exact Or.inr ⟨x, by simp [hx], h'⟩

/-- **C88, a factor per cell** given as a vector with one component scales every row and keeps copies up to date. -/
theorem scaled_by_field {v : List (Part n)} {R : List (Part 1)} (hv : Shape L v) (hR : Shape L R) :
    ∃ u, forRanks (fun _ (x : Part n × Part 1) => Part.both byFirst x.1 x.2) 0 (v.zip R) = .ok u ∧ Shape L u ∧
      glob u = List.zipWith (fun x r => r 0 • x) (glob v) (glob R) ∧ (Fresh L v → Fresh L R → Fresh L u) := by
  have e : (fun (x : Row n) (r : Row 1) => r 0 • x) = byFirst := by
    funext x r c
    simp [byFirst, mul_comm]
  have hal := alike_of hv hR
  refine ⟨_, ranks_zip (both_eq byFirst) hal 0, shape_zip _ hv hR, ?_, fresh_zip _ hv hR⟩
  rw [e]
  exact glob_zip _ hal

/-- **C88, a factor per own cell** given as numbers scales the own rows -/
theorem scaled_own {v : Part n} {R : List ℝ} (h : v.father.length ≤ R.length) : v.scaleRows R = .ok ⟨List.zipWith (fun x r => r • x) v.father R, v.son⟩ := by
  unfold Part.scaleRows
  rw [Res.assert_true _ h, Res.ok_bind]
  have : forRanks (fun i (x : Row n) => do
      let r ← idx R i
      .ok (fun c => x c * r)) 0 v.father = .ok (List.zipWith (fun x r => r • x) v.father R) := by
    refine (forRanks_ok _ _ _ _).2 ⟨by rw [List.length_zipWith]; omega, fun i x hx => ?_⟩
    have hi : i < R.length := lt_of_lt_of_le (List.getElem?_eq_some_iff.1 hx).1 h
    refine ⟨R[i] • x, by rw [List.getElem?_zipWith, hx, List.getElem?_eq_getElem hi], ?_⟩
    rw [Nat.zero_add, idx_some (List.getElem?_eq_getElem hi), Res.ok_bind]
    congr 1
    funext c
    simp [mul_comm]
  rw [this, Res.ok_bind]

/-! ## Two ranks, three cells -/

namespace Demo

/-- rank 0 has cells 0 and 1 and a copy of cell 2, rank 1 has cell 2 and a copy of cell 1 -/
def layout : Layout := [(2, [2]), (1, [1])]

/-- three rows -/
def vec (a b c : ℝ) : List (Part 1) := [⟨[fun _ => a, fun _ => b], [fun _ => c]⟩, ⟨[fun _ => c], [fun _ => b]⟩]

theorem layout_ok : layout.Ok := by
  intro o ho g hg
  simp only [layout, List.mem_cons, List.not_mem_nil, or_false] at ho
  rcases ho with rfl | rfl <;> simp_all [layout]

theorem vec_shape (a b c : ℝ) : Shape layout (vec a b c) :=
  List.Forall₂.cons ⟨rfl, rfl⟩ (List.Forall₂.cons ⟨rfl, rfl⟩ List.Forall₂.nil)

theorem vec_fresh (a b c : ℝ) : Fresh layout (vec a b c) :=
  List.Forall₂.cons rfl (List.Forall₂.cons rfl List.Forall₂.nil)

/-- `step_holds` and `vectors`: a Gram-Schmidt step, with the factor taken from the scalar product just computed -/
noncomputable def prog : List ℝ → Instr 1
  | [] => .dot 0 1 1 1
  | [a] => .addTo 0 1 (-a)
  | _ => .norm2 0

example : ∃ s', run (layout.map (·.2)) prog 2 ⟨[vec 1 2 3, vec 0 0 1], []⟩ = .ok s' ∧
    Holds layout s' (Whole.run prog 2 ⟨[vec 1 2 3, vec 0 0 1].map glob, [], fun _ => True⟩) :=
  vectors layout_ok prog 2 _ _
    ⟨by
      intro v hv
      simp only [List.mem_cons, List.not_mem_nil, or_false] at hv
      rcases hv with rfl | rfl <;> exact vec_shape _ _ _, rfl, rfl, by
      intro k v hv _
      rcases k with _ | _ | k
      · rw [← Option.some.inj hv]; exact vec_fresh _ _ _
      · rw [← Option.some.inj hv]; exact vec_fresh _ _ _
      · simp at hv⟩
    (by
      intro out
      rcases out with _ | ⟨a, _ | ⟨b, l⟩⟩ <;> simp [prog, Instr.Uses])

/-- what that gives: the third row is made orthogonal to the second vector -/
example : (Whole.run prog 2 ⟨[vec 1 2 3, vec 0 0 1].map glob, [], fun _ => True⟩).vecs = [vec 1 2 0, vec 0 0 1].map glob := by
  norm_num [Whole.run, Whole.step, prog, Whole.vec, vec, glob]
  refine ⟨rfl, ?_⟩
  funext c
  norm_num

/-- **C88, not kept** Scaling by a list of numbers leaves the copies as they are: they were up to date before and are not after. -/
theorem scaled_own_stale : Fresh layout (vec 1 1 1) ∧ forRanks (fun _ (p : Part 1) => p.scaleRows [2, 2]) 0 (vec 1 1 1) =
    .ok [⟨[fun _ => 2, fun _ => 2], [fun _ => 1]⟩, ⟨[fun _ => 2], [fun _ => 1]⟩] ∧
    ¬ Fresh (n := 1) layout [⟨[fun _ => 2, fun _ => 2], [fun _ => 1]⟩, ⟨[fun _ => 2], [fun _ => 1]⟩] := by
  refine ⟨vec_fresh _ _ _, ?_, ?_⟩
  · simp [vec, forRanks, Part.scaleRows, idx, Res.assert]
  · intro h
    cases h with
    | cons h _ =>
      have := congrArg (fun l => l.map fun o => o.map fun x : Row 1 => x 0) h
      simp [glob] at this

end Demo

end DNDSR.Dof
