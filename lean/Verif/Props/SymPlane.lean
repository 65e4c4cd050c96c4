import Verif.Spec.SymPlane
import Mathlib.Tactic.NormNum
import Mathlib.Tactic.FinCases
import Mathlib.Data.Fintype.Basic
import Mathlib.Data.Fin.VecNotation

/-! # C111: the nodes of symmetry planes lie on them -/

namespace DNDSR.SymP

theorem axisOf_some {b : Bnd} {a : Fin 3} : axisOf b = .ok (some a) ↔ OnPlane b a := by
  unfold axisOf OnPlane
  by_cases hk : b.kind = .sym
  · rw [if_pos hk]
    cases hf : b.flag with
    | none => simp
    | some o =>
      simp only [hk, true_and, Option.some.injEq, Res.ok.injEq]
      fin_cases a <;> split_ifs <;> simp_all
  · simp [hk]

theorem axisOf_unique {b : Bnd} {a a' : Fin 3} (h : OnPlane b a) (h' : OnPlane b a') : a = a' := by
  have := h.2.symm.trans h'.2
  simp at this
  exact Fin.ext this

open Classical in
theorem zeroNodes_spec {size : Nat} {a : Fin 3} : ∀ (is : List Nat) {p p' : Nat → V3}, zeroNodes size a p is = .ok p' →
    ∀ i c, p' i c = if c = a ∧ i ∈ is then 0 else p i c
  | [], p, p', h => by cases h; simp
  | j :: is, p, p', h => by
    unfold zeroNodes at h
    split at h
    · intro i c
      rw [zeroNodes_spec is h i c]
      by_cases hc : c = a
      · subst hc
        by_cases hi : i ∈ is
        · simp [hi]
        · by_cases hj : i = j
          · subst hj; simp
          · simp [hi, hj]
      · by_cases hj : i = j
        · subst hj; simp [hc]
        · simp [hc, hj]
    · cases h

open Classical in
theorem zeroBnds_spec {size : Nat} : ∀ (bs : List Bnd) {p p' : Nat → V3}, zeroBnds size p bs = .ok p' →
    ∀ i c, p' i c = if ∃ b ∈ bs, OnPlane b c ∧ i ∈ b.nodes then 0 else p i c
  | [], p, p', h => by cases h; simp
  | b :: bs, p, p', h => by
    unfold zeroBnds at h
    simp only [Res.bind_ok_iff] at h
    obtain ⟨o, ho, p1, h1, h2⟩ := h
    intro i c
    rw [zeroBnds_spec bs h2 i c]
    by_cases hb : ∃ b' ∈ bs, OnPlane b' c ∧ i ∈ b'.nodes
    · rw [if_pos hb, if_pos]
      obtain ⟨b', h1, h2⟩ := hb
      exact ⟨b', List.mem_cons_of_mem _ h1, h2⟩
    · rw [if_neg hb]
      have e : (∃ b' ∈ b :: bs, OnPlane b' c ∧ i ∈ b'.nodes) ↔ (OnPlane b c ∧ i ∈ b.nodes) := by
        constructor
        · rintro ⟨b', hm, hh⟩
          rcases List.mem_cons.1 hm with rfl | hm
          · exact hh
          · exact absurd ⟨b', hm, hh⟩ hb
        · intro hh; exact ⟨b, List.mem_cons_self, hh⟩
      rw [if_congr e rfl rfl]
      cases o with
      | none =>
        cases h1
        rw [if_neg]
        rintro ⟨hh, -⟩
        rw [axisOf_some.2 hh] at ho
        cases ho
      | some a =>
        have ha := axisOf_some.1 ho
        rw [zeroNodes_spec b.nodes h1 i c]
        refine if_congr ?_ rfl rfl
        constructor
        · rintro ⟨rfl, hh⟩; exact ⟨ha, hh⟩
        · rintro ⟨hh, hi⟩; exact ⟨axisOf_unique hh ha, hi⟩

theorem zeroAll_spec : ∀ (Rs : List Rank) {ps : List (Nat → V3)}, zeroAll Rs = .ok ps →
    ps.length = Rs.length ∧ ∀ (r : Nat) (R : Rank), Rs[r]? = some R → ∃ p, ps[r]? = some p ∧ zeroBnds (R.own + R.ghosts.length) R.pos R.bnds = .ok p
  | [], ps, h => by cases h; simp
  | R :: Rs, ps, h => by
    unfold zeroAll at h
    simp only [Res.bind_ok_iff] at h
    obtain ⟨p, h1, ps', h2, h3⟩ := h
    cases h3
    obtain ⟨a, b⟩ := zeroAll_spec Rs h2
    refine ⟨by simp [a], fun r R' hr => ?_⟩
    cases r with
    | zero => simp at hr; subst hr; exact ⟨p, rfl, h1⟩
    | succ r => simpa using b r R' (by simpa using hr)

open Classical in
/-- **C111** (what happens)  After rectification the copies of a node agree with its original, and of an original exactly those coordinates have become zero for which
*its own rank* has an element of such a plane with the node. -/
theorem rectify_spec {Rs : List Rank} (hL : Linked Rs) {ps : List (Nat → V3)} (h : rectify Rs = .ok ps) :
    ps.length = Rs.length ∧ ∀ (r : Nat) (R : Rank) (p : Nat → V3), Rs[r]? = some R → ps[r]? = some p →
      (∀ i < R.own, ∀ c, p i c = if ∃ b ∈ R.bnds, OnPlane b c ∧ i ∈ b.nodes then 0 else R.pos i c) ∧
      ∀ k o, R.ghosts[k]? = some o → ∃ q, ps[o.1]? = some q ∧ p (R.own + k) = q o.2 := by
  unfold rectify at h
  rw [Res.bind_ok_iff] at h
  obtain ⟨zs, h1, h2⟩ := h
  cases h2
  obtain ⟨a, b⟩ := zeroAll_spec Rs h1
  refine ⟨by simp [a], fun r R p hr hp => ?_⟩
  obtain ⟨z, hz, hb⟩ := b r R hr
  have hp' : pullRank zs R z = p := by
    rw [List.getElem?_zipWith, hr, hz] at hp
    simpa using hp
  subst hp'
  refine ⟨fun i hi c => ?_, fun k o ho => ?_⟩
  · unfold pullRank
    rw [if_pos hi]
    exact zeroBnds_spec R.bnds hb i c
  · obtain ⟨Q, hQ, hlt⟩ := hL R (List.mem_of_getElem? hr) o (List.mem_of_getElem? ho)
    obtain ⟨y, hy, -⟩ := b o.1 Q hQ
    refine ⟨pullRank zs Q y, by rw [List.getElem?_zipWith, hQ, hy], ?_⟩
    unfold pullRank
    rw [if_neg (by omega), Nat.add_sub_cancel_left, ho, if_pos hlt]
    simp only [hy]

/-- **C111, partial**  If the rank that owns a node of a symmetry plane always has an element of the plane with this node itself, all nodes of symmetry planes lie on their
planes, on every rank that has them.  Missing: nodes whose owner has no such element (`rectify_lost`). -/
theorem rectified_partial {Rs : List Rank} (hL : Linked Rs) (hC : Covered Rs) {ps : List (Nat → V3)} (h : rectify Rs = .ok ps)
    {r : Nat} {R : Rank} {p : Nat → V3} (hr : Rs[r]? = some R) (hp : ps[r]? = some p) {b : Bnd} (hb : b ∈ R.bnds) {a : Fin 3} (ha : OnPlane b a)
    {i : Nat} (hi : i ∈ b.nodes) (hs : i < R.own + R.ghosts.length) : p i a = 0 := by
  obtain ⟨hlen, H⟩ := rectify_spec hL h
  by_cases hio : i < R.own
  · rw [(H r R p hr hp).1 i hio a, if_pos ⟨b, hb, ha, hi⟩]
  · obtain ⟨o, ho⟩ : ∃ o, R.ghosts[i - R.own]? = some o := ⟨_, List.getElem?_eq_getElem (by omega)⟩
    obtain ⟨q, hq, hpq⟩ := (H r R p hr hp).2 (i - R.own) o ho
    rw [show R.own + (i - R.own) = i by omega] at hpq
    obtain ⟨Q, b', hQ, hb', ha', hm⟩ := hC r R hr b hb a ha i hi
    have horig : original r R i = o := by unfold original; rw [if_neg hio, ho]; rfl
    rw [horig] at hQ hm
    obtain ⟨Q', hQ', hlt⟩ := hL R (List.mem_of_getElem? hr) o (List.mem_of_getElem? ho)
    cases hQ.symm.trans hQ'
    rw [hpq, (H o.1 Q q hQ hq).1 o.2 hlt a, if_pos ⟨b', hb', ha', hm⟩]

/-- **C111** (one rank)  On one rank all nodes of symmetry planes lie on their planes, and nothing else moves. -/
theorem rectify_serial {R : Rank} (hg : R.ghosts = []) {p : Nat → V3} (h : rectify [R] = .ok [p]) {i : Nat} (hi : i < R.own) (c : Fin 3) :
    ((∃ b ∈ R.bnds, OnPlane b c ∧ i ∈ b.nodes) → p i c = 0) ∧ ((¬ ∃ b ∈ R.bnds, OnPlane b c ∧ i ∈ b.nodes) → p i c = R.pos i c) := by
  classical
  have hL : Linked [R] := by
    intro R' hR' o ho
    rw [List.mem_singleton] at hR'
    subst hR'
    rw [hg] at ho
    cases ho
  have := ((rectify_spec hL h).2 0 R p rfl rfl).1 i hi c
  exact ⟨fun hh => by rw [this, if_pos hh], fun hh => by rw [this, if_neg hh]⟩

theorem zeroNodes_ok {size : Nat} {a : Fin 3} : ∀ (is : List Nat) (p : Nat → V3), (∀ i ∈ is, i < size) → ∃ p', zeroNodes size a p is = .ok p'
  | [], p, _ => ⟨p, rfl⟩
  | i :: is, p, h => by
    unfold zeroNodes
    rw [if_pos (h i List.mem_cons_self)]
    exact zeroNodes_ok is _ fun j hj => h j (List.mem_cons_of_mem _ hj)

theorem zeroBnds_ok {size : Nat} : ∀ (bs : List Bnd) (p : Nat → V3), (∀ b ∈ bs, (b.kind = .sym → b.flag.isSome) ∧ ∀ i ∈ b.nodes, i < size) →
    ∃ p', zeroBnds size p bs = .ok p'
  | [], p, _ => ⟨p, rfl⟩
  | b :: bs, p, h => by
    have ih := fun q => zeroBnds_ok bs q fun b' hb' => h b' (List.mem_cons_of_mem _ hb')
    obtain ⟨h1, h2⟩ := h b List.mem_cons_self
    have ho : ∃ o, axisOf b = .ok o := by
      unfold axisOf
      split
      · rename_i hk
        obtain ⟨o, ho⟩ := Option.isSome_iff_exists.1 (h1 hk)
        rw [ho]; exact ⟨_, rfl⟩
      · exact ⟨_, rfl⟩
    obtain ⟨o, ho⟩ := ho
    unfold zeroBnds
    rw [ho, Res.ok_bind]
    cases o with
    | none => exact ih p
    | some a =>
      obtain ⟨p', hp'⟩ := zeroNodes_ok (a := a) b.nodes p h2
      obtain ⟨p2, h2⟩ := ih p'
      exact ⟨p2, by simp only [hp', Res.ok_bind, h2]⟩

/-- **C111** (success)  If every symmetry zone has the flag and elements have local nodes, rectification succeeds. -/
theorem rectify_ok {Rs : List Rank} (h : ∀ R ∈ Rs, ∀ b ∈ R.bnds, (b.kind = .sym → b.flag.isSome) ∧ ∀ i ∈ b.nodes, i < R.own + R.ghosts.length) :
    ∃ ps, rectify Rs = .ok ps := by
  have : ∃ ps, zeroAll Rs = .ok ps := by
    induction Rs with
    | nil => exact ⟨[], rfl⟩
    | cons R Rs ih =>
      obtain ⟨ps, hps⟩ := ih fun R' hR' => h R' (List.mem_cons_of_mem _ hR')
      obtain ⟨p, hp⟩ := zeroBnds_ok R.bnds R.pos (h R List.mem_cons_self)
      exact ⟨p :: ps, by unfold zeroAll; rw [hp, Res.ok_bind, hps, Res.ok_bind]⟩
  obtain ⟨ps, hps⟩ := this
  exact ⟨_, by unfold rectify; rw [hps, Res.ok_bind]⟩

/-! ### the node that stays off the plane -/

/-- rank 0 owns a node at `(1, 2, 3)` and has no boundary element: the rank of a node is the least of the ranks of its cells, `src/Geom/Mesh.cpp:254-257`, that of an
element the rank of its cell, `:259-261`, so that a cell of rank 0 that touches the plane in one node only is enough -/
def rankA : Rank := ⟨1, [], fun _ => ![1, 2, 3], []⟩

/-- rank 1 has a copy of the node, and an element of the symmetry plane `z = 0` with it and a node of its own -/
def rankB : Rank := ⟨1, [(0, 0)], fun _ => ![1, 2, 3], [⟨.sym, some 3, [0, 1]⟩]⟩

theorem linked_AB : Linked [rankA, rankB] := by
  intro R hR o ho
  simp only [List.mem_cons, List.not_mem_nil, or_false] at hR
  rcases hR with rfl | rfl
  · cases ho
  · simp only [rankB, List.mem_cons, List.not_mem_nil, or_false] at ho
    subst ho
    exact ⟨rankA, rfl, by decide⟩

theorem rectify_AB : ∃ ps, rectify [rankA, rankB] = .ok ps := by
  refine rectify_ok fun R hR b hb => ?_
  simp only [List.mem_cons, List.not_mem_nil, or_false] at hR
  rcases hR with rfl | rfl
  · cases hb
  · simp only [rankB, List.mem_cons, List.not_mem_nil, or_false] at hb
    subst hb
    exact ⟨fun _ => rfl, by decide⟩

/-- **C111 fails**: a node of a symmetry plane whose owner has no element of the plane stays where it was on every rank, although it is set to zero on the rank with the element: the exchange
brings the old value back. -/
theorem rectify_lost : ∃ pA pB, rectify [rankA, rankB] = .ok [pA, pB] ∧ pB 0 2 = 0 ∧ pB 1 2 = 3 ∧ pA 0 2 = 3 := by
  obtain ⟨ps, h⟩ := rectify_AB
  obtain ⟨hlen, H⟩ := rectify_spec linked_AB h
  match ps, hlen with
  | [pA, pB], _ =>
    have hA := (H 0 rankA pA rfl rfl).1 0 (by decide) 2
    have hB := (H 1 rankB pB rfl rfl).1 0 (by decide) 2
    obtain ⟨q, hq, hg⟩ := (H 1 rankB pB rfl rfl).2 0 (0, 0) rfl
    cases hq
    rw [if_neg (by simp [rankA])] at hA
    rw [if_pos ⟨⟨.sym, some 3, [0, 1]⟩, by simp [rankB], ⟨rfl, rfl⟩, by simp⟩] at hB
    have h3 : pA 0 2 = 3 := by rw [hA]; rfl
    refine ⟨pA, pB, h, hB, ?_, h3⟩
    have : pB 1 = pA 0 := hg
    rw [this, h3]

/-- rank 1 with an element of the same plane on rank 0 meets the hypotheses of `rectified_partial` -/
example : Linked [{ rankA with bnds := [⟨.sym, some 3, [0]⟩] }, rankB] ∧ Covered [{ rankA with bnds := [⟨.sym, some 3, [0]⟩] }, rankB] := by
  refine ⟨?_, ?_⟩
  · intro R hR o ho
    simp only [List.mem_cons, List.not_mem_nil, or_false] at hR
    rcases hR with rfl | rfl
    · cases ho
    · simp only [rankB, List.mem_cons, List.not_mem_nil, or_false] at ho
      subst ho
      exact ⟨_, rfl, Nat.zero_lt_one⟩
  · intro r R hr b hb a ha i hi
    match r, hr with
    | 0, hr =>
      cases hr
      simp only [List.mem_cons, List.not_mem_nil, or_false] at hb
      subst hb
      simp only [List.mem_cons, List.not_mem_nil, or_false] at hi
      subst hi
      exact ⟨_, _, rfl, List.mem_cons_self, ha, List.mem_cons_self⟩
    | 1, hr =>
      cases hr
      simp only [rankB, List.mem_cons, List.not_mem_nil, or_false] at hb
      subst hb
      simp only [List.mem_cons, List.not_mem_nil, or_false] at hi
      rcases hi with rfl | rfl
      · exact ⟨_, _, rfl, List.mem_cons_self, ha, List.mem_cons_self⟩
      · exact ⟨_, _, rfl, List.mem_cons_self, ha, List.mem_cons_self⟩

end DNDSR.SymP
