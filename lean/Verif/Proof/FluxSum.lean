import Verif.Spec.FluxSum
import Verif.Proof.FluxOrient
import Mathlib.Algebra.BigOperators.Ring.Finset
import Mathlib.Algebra.BigOperators.Group.Finset.Piecewise
import Mathlib.Algebra.Module.BigOperators
import Mathlib.Tactic.Abel

/-! Helper lemmas for `Verif.Props.FluxSum`. -/

namespace DNDSR.Flux

open DNDSR.Elem DNDSR.IMap DNDSR.MeshAdj DNDSR.Faces

variable {K V : Type} [Field K] [AddCommGroup V] [Module K V]

theorem fromFace2Cell_zero (fr : Frame V) (z : Int) (u : V) : fromFace2Cell fr z 0 u = u := by
  simp [fromFace2Cell]

theorem fromFace2Cell_one (fr : Frame V) (z : Int) (u : V) : fromFace2Cell fr z 1 u = turn fr z u := by
  simp only [fromFace2Cell, turn, isPeriodic, isMain, isDonor]
  cases hp : fr.periodic
  · simp
  · by_cases h1 : z = -1
    · subst h1; simp
    by_cases h2 : z = -2
    · subst h2; simp
    by_cases h3 : z = -3
    · subst h3; simp
    by_cases h4 : z = -4
    · subst h4; simp
    by_cases h5 : z = -5
    · subst h5; simp
    by_cases h6 : z = -6
    · subst h6; simp
    · simp [h1, h2, h3, h4, h5, h6]

theorem at64_ok {α : Type} {l : List α} {v : Nat} {x : α} (h : l[v]? = some x) : at64 l (v : Int) = .ok x := by
  simp only [at64, if_pos (Int.natCast_nonneg v), Int.toNat_natCast]
  exact (idx_ok_iff l v x).2 h

/-- what the face at place `k` of the list, which has number `v0 + k`, adds to cell `l` before the division -/
def part (fr : Frame V) (d : Fields K V) (fs : List Face) (v0 l k : Nat) : V :=
  match fs[k]? with
  | none => 0
  | some f => (if f.first = l then d.flux[v0 + k]?.getD 0 else 0) +
      if f.second = l then turn fr (d.zone[v0 + k]?.getD 0) (-(d.flux[v0 + k]?.getD 0)) else 0

/-- a face of the list can be added -/
def Fit (d : Fields K V) (v : Nat) (f : Face) : Prop :=
  (∃ φ, d.flux[v]? = some φ) ∧ (∃ z, d.zone[v]? = some z) ∧ (∃ l : Nat, f.first = l ∧ l < d.vol.length) ∧
    (f.second = unInit ∨ ∃ l : Nat, f.second = l ∧ l < d.vol.length)

theorem addTo_spec {vol : List K} {rhs : List V} (hl : rhs.length = vol.length) {l : Nat} (h : l < vol.length) (u : V) :
    ∃ rhs', addTo vol rhs (l : Int) u = .ok rhs' ∧ rhs'.length = rhs.length ∧ ∀ (k : Nat) (w : V) (m : K), rhs[k]? = some w → vol[k]? = some m →
      rhs'[k]? = some (w + m⁻¹ • if l = k then u else 0) := by
  have h1 := List.getElem?_eq_getElem (l := rhs) (i := l) (by omega)
  have h2 := List.getElem?_eq_getElem (l := vol) (i := l) h
  refine ⟨rhs.set l (rhs[l] + (vol[l])⁻¹ • u), ?_, by simp, ?_⟩
  · simp only [addTo, at64_ok h1, at64_ok h2, Res.ok_bind, Int.toNat_natCast]
  · intro k w m hw hm
    by_cases e : l = k
    · subst e
      rw [h1] at hw; cases hw
      rw [h2] at hm; cases hm
      rw [List.getElem?_set_self (by omega), if_pos rfl]
    · rw [List.getElem?_set_ne e, hw, if_neg e, smul_zero, add_zero]

theorem faceStep_spec (fr : Frame V) (d : Fields K V) {v : Nat} {f : Face} {rhs : List V} (hl : rhs.length = d.vol.length) (hf : Fit d v f) :
    ∃ rhs', faceStep fr d v f rhs = .ok rhs' ∧ rhs'.length = rhs.length ∧ ∀ (k : Nat) (w : V) (m : K), rhs[k]? = some w → d.vol[k]? = some m →
      rhs'[k]? = some (w + m⁻¹ • part fr d [f] v k 0) := by
  obtain ⟨⟨φ, h1⟩, ⟨z, h2⟩, ⟨l, e1, h3⟩, h4⟩ := hf
  obtain ⟨r1, a1, a2, a3⟩ := addTo_spec hl h3 φ
  simp only [faceStep, (idx_ok_iff _ _ _).2 h1, (idx_ok_iff _ _ _).2 h2, Res.ok_bind, fromFace2Cell_zero, fromFace2Cell_one, e1, a1]
  rcases h4 with e2 | ⟨l2, e2, h4⟩
  · refine ⟨r1, by rw [if_pos e2], a2, ?_⟩
    intro k w m hw hm
    rw [a3 k w m hw hm]
    have hne : ¬ ((unInit : Int) = (k : Int)) := by have := unInit_neg; omega
    simp only [part, List.getElem?_cons_zero, e1, e2, Nat.add_zero, h1, Option.getD_some, if_neg hne, add_zero, Nat.cast_inj]
  · have hne : ¬ (f.second = unInit) := by have := unInit_neg; omega
    obtain ⟨r2, b1, b2, b3⟩ := addTo_spec (vol := d.vol) (rhs := r1) (by omega) h4 (turn fr z (-φ))
    refine ⟨r2, by rw [if_neg hne, e2, b1], by omega, ?_⟩
    intro k w m hw hm
    rw [b3 k _ m (a3 k w m hw hm) hm]
    simp only [part, List.getElem?_cons_zero, e1, e2, Nat.add_zero, h1, h2, Option.getD_some, Nat.cast_inj, smul_add, add_assoc]

theorem part_succ (fr : Frame V) (d : Fields K V) (f : Face) (fs : List Face) (v0 l k : Nat) :
    part fr d (f :: fs) v0 l (k + 1) = part fr d fs (v0 + 1) l k := by
  simp only [part, List.getElem?_cons_succ, show v0 + (k + 1) = v0 + 1 + k by omega]

theorem part_zero (fr : Frame V) (d : Fields K V) (f : Face) (fs : List Face) (v0 l : Nat) :
    part fr d (f :: fs) v0 l 0 = part fr d [f] v0 l 0 := by
  simp only [part, List.getElem?_cons_zero]

theorem faceLoop_spec (fr : Frame V) (d : Fields K V) : ∀ (fs : List Face) (v0 : Nat) (rhs : List V), rhs.length = d.vol.length →
    (∀ (k : Nat) (f : Face), fs[k]? = some f → Fit d (v0 + k) f) →
    ∃ rhs', faceLoop fr d v0 fs rhs = .ok rhs' ∧ rhs'.length = rhs.length ∧ ∀ (l : Nat) (w : V) (m : K), rhs[l]? = some w → d.vol[l]? = some m →
      rhs'[l]? = some (w + m⁻¹ • ∑ k ∈ Finset.range fs.length, part fr d fs v0 l k) := by
  intro fs
  induction fs with
  | nil =>
      intro v0 rhs hl _
      exact ⟨rhs, rfl, rfl, fun l w m hw _ => by simp [hw]⟩
  | cons f fs ih =>
      intro v0 rhs hl hf
      obtain ⟨r1, a1, a2, a3⟩ := faceStep_spec fr d hl (hf 0 f rfl)
      obtain ⟨r2, b1, b2, b3⟩ := ih (v0 + 1) r1 (by omega) (fun k g hg => by
        have := hf (k + 1) g (by simpa using hg)
        rwa [show v0 + (k + 1) = v0 + 1 + k by omega] at this)
      refine ⟨r2, by simp only [faceLoop]; rw [show faceStep fr d v0 f rhs = .ok r1 from a1]; exact b1, by omega, ?_⟩
      intro l w m hw hm
      rw [b3 l _ m (a3 l w m hw hm) hm, List.length_cons, Finset.sum_range_succ']
      simp only [part_succ, part_zero, Nat.add_zero]
      rw [add_assoc, ← smul_add, add_comm (part fr d [f] v0 l 0)]

theorem serial_spec (fr : Frame V) (d : Fields K V) (o : RankOut) (hf : ∀ (k : Nat) (f : Face), o.faces[k]? = some f → Fit d k f) :
    ∃ rhs, serial fr d o = .ok rhs ∧ rhs.length = d.vol.length ∧ ∀ (l : Nat) (m : K), d.vol[l]? = some m →
      rhs[l]? = some (m⁻¹ • ∑ k ∈ Finset.range o.faces.length, part fr d o.faces 0 l k) := by
  obtain ⟨rhs, h1, h2, h3⟩ := faceLoop_spec fr d o.faces 0 (List.replicate d.vol.length 0) (by simp)
    (fun k f h => by rw [Nat.zero_add]; exact hf k f h)
  refine ⟨rhs, h1, by simpa using h2, ?_⟩
  intro l m hm
  rw [h3 l 0 m (by rw [List.getElem?_replicate, if_pos (List.getElem?_eq_some_iff.1 hm).1]) hm, zero_add]

variable {per : Bool} {cl nl : List Nat} {G : List Cell} {gc : GOM} {ranks : List RankIn} {outs : List RankOut} {F : Nat → Nat → Int}
  {ds : List (Fields K V)} {vol : Nat → K} {flux : Int → V} {zone : Int → Int} {E : Int → Nat × Nat}

/-- the first side -/
def firstSide (E : Int → Nat × Nat) (F : Nat → Nat → Int) (i j : Nat) : Bool := decide (E (F i j) = (i, j))

theorem sides (hD : Distributed per cl nl G gc ranks) (hN : Numbered per cl nl G ranks outs F) (hE : Orient per cl G ranks outs F E) :
    Sides per G F (firstSide E F) := by
  constructor
  · intro i j a ha ho
    obtain ⟨h1, b, hb⟩ := hE.slot _ (hN.range i j a ha)
    simp only [firstSide, decide_eq_true_eq]
    exact ho _ _ b hb h1
  · intro i j i' j' a b ha hb h hne
    obtain ⟨h1, c, hc⟩ := hE.slot _ (hN.range i j a ha)
    simp only [firstSide, ← h]
    by_cases e : E (F i j) = (i, j)
    · have : ¬ (E (F i j) = (i', j')) := by rw [e]; exact hne
      simp [e, hne]
    · have : E (F i j) = (i', j') := (two_sides hD hN ha hb hc h.symm h1 (fun h => hne h.symm) e).symm
      have hne' : ¬ ((i', j') = (i, j)) := fun h => hne h.symm
      rw [this, decide_eq_false hne', decide_eq_true rfl, Bool.not_true]

theorem nSides_eq {i : Nat} {C : Cell} (h : G[i]? = some C) : nSides G i = (numFaces C.type).toNat := by
  simp [nSides, h]

theorem isSlot_of {i j : Nat} (h : j < nSides G i) : ∃ a, IsSlot per G i j a := by
  cases hC : G[i]? with
  | none => simp [nSides, hC] at h
  | some C =>
      rw [nSides_eq hC] at h
      exact ⟨_, C, hC, h, rfl⟩

theorem lt_of_isSlot {i j : Nat} {a : Slot} (h : IsSlot per G i j a) : j < nSides G i := by
  obtain ⟨C, hC, hj, _⟩ := h
  rw [nSides_eq hC]; exact hj

theorem fit (hN : Numbered per cl nl G ranks outs F) (hE : Orient per cl G ranks outs F E) (hD : Distributed per cl nl G gc ranks)
    (hA : Agree cl ranks outs ds vol flux zone) {s : Nat} {x : RankIn} {o : RankOut} {d : Fields K V} (hx : ranks[s]? = some x)
    (ho : outs[s]? = some o) (hd : ds[s]? = some d) {v : Nat} {f : Face} (hf : o.faces[v]? = some f) : Fit d v f := by
  obtain ⟨q, hq, hn⟩ := face_number hN hx ho hf
  obtain ⟨h1, h2⟩ := hA.faces s o d q v ho hd hn hq
  obtain ⟨⟨l, e, hl⟩, h3⟩ := hE.face s x o q v f hx ho hq hn hf
  have hlen := hA.len s x d hx hd
  have hH := hD.holds s x hx
  refine ⟨⟨_, h1⟩, ⟨_, h2⟩, ⟨l, e, by rw [hlen]; exact is_lt hH hl⟩, ?_⟩
  rcases h3 with ⟨h3, _⟩ | ⟨l', i', j', b, e', hl', _⟩
  · exact Or.inl h3
  · exact Or.inr ⟨l', e', by rw [hlen]; exact is_lt hH hl'⟩

/-- the faces of a rank that meet an own cell are the faces of the cell -/
theorem sum_part (fr : Frame V) (hD : Distributed per cl nl G gc ranks) (hN : Numbered per cl nl G ranks outs F) (hE : Orient per cl G ranks outs F E)
    (hA : Agree cl ranks outs ds vol flux zone) {s : Nat} {x : RankIn} {o : RankOut} {d : Fields K V} (hx : ranks[s]? = some x)
    (ho : outs[s]? = some o) (hd : ds[s]? = some d) {l i : Nat} (hi : Is cl s x l i) (hoi : Owns cl s i) :
    ∑ k ∈ Finset.range o.faces.length, part fr d o.faces 0 l k =
      ∑ j ∈ Finset.range (nSides G i), if firstSide E F i j then flux (F i j) else turn fr (zone (F i j)) (-flux (F i j)) := by
  have hH := hD.holds s x hx
  -- the face of every slot
  have hv : ∀ j : Nat, ∃ v : Nat, j < nSides G i → FName outs s o (F i j) v ∧ ∃ f, o.faces[v]? = some f := by
    intro j
    by_cases hj : j < nSides G i
    · obtain ⟨a, ha⟩ := isSlot_of (per := per) hj
      obtain ⟨v, f, _, h2, h3⟩ := own_face hN hx ho hi hoi ha
      exact ⟨v, fun _ => ⟨h2, f, h3⟩⟩
    · exact ⟨0, fun h => absurd h hj⟩
  choose v hv using hv
  have hvals : ∀ {j : Nat}, j < nSides G i → d.flux[v j]? = some (flux (F i j)) ∧ d.zone[v j]? = some (zone (F i j)) := by
    intro j hj
    obtain ⟨a, ha⟩ := isSlot_of (per := per) hj
    exact hA.faces s o d _ _ ho hd (hv j hj).1 (hN.range i j a ha)
  -- first and second sides apart
  have hL : ∀ k ∈ Finset.range o.faces.length, part fr d o.faces 0 l k =
      (if (∃ f, o.faces[k]? = some f ∧ f.first = l) then d.flux[k]?.getD 0 else 0) +
      if (∃ f, o.faces[k]? = some f ∧ f.second = l) then turn fr (d.zone[k]?.getD 0) (-(d.flux[k]?.getD 0)) else 0 := by
    intro k hk
    have hf := List.getElem?_eq_getElem (Finset.mem_range.1 hk)
    simp only [part, hf, Nat.zero_add, Option.some.injEq, exists_eq_left']
  have hR : ∀ j ∈ Finset.range (nSides G i), (if firstSide E F i j then flux (F i j) else turn fr (zone (F i j)) (-flux (F i j))) =
      (if firstSide E F i j = true then flux (F i j) else 0) + if ¬ (firstSide E F i j = true) then turn fr (zone (F i j)) (-flux (F i j)) else 0 := by
    intro j _
    by_cases h : firstSide E F i j = true <;> simp [h]
  rw [Finset.sum_congr rfl hL, Finset.sum_congr rfl hR, Finset.sum_add_distrib, Finset.sum_add_distrib]
  congr 1
  · rw [← Finset.sum_filter, ← Finset.sum_filter]
    symm
    refine Finset.sum_bij (fun j _ => v j) ?_ ?_ ?_ ?_
    · intro j hj
      simp only [Finset.mem_filter, Finset.mem_range, firstSide, decide_eq_true_eq] at hj
      obtain ⟨hj, he⟩ := hj
      obtain ⟨a, ha⟩ := isSlot_of (per := per) hj
      obtain ⟨hn, f, hf⟩ := hv j hj
      obtain ⟨⟨l1, e1, h1⟩, _⟩ := hE.face s x o _ _ f hx ho (hN.range i j a ha) hn hf
      rw [he] at h1
      have : l1 = l := is_unique hH h1 hi
      subst this
      simp only [Finset.mem_filter, Finset.mem_range]
      exact ⟨(List.getElem?_eq_some_iff.1 hf).1, f, hf, e1⟩
    · intro j hj j' hj' e
      simp only [Finset.mem_filter, Finset.mem_range, firstSide, decide_eq_true_eq] at hj hj'
      obtain ⟨a, ha⟩ := isSlot_of (per := per) hj.1
      obtain ⟨b, hb⟩ := isSlot_of (per := per) hj'.1
      have hn := (hv j hj.1).1
      have hn' := (hv j' hj'.1).1
      rw [← e] at hn'
      have := name_inj (face_faithful hN ho) (by omega) (hN.range i j a ha).1 (hN.range i j' b hb).1 hn hn'
      exact slots_apart hD ha hb ((hN.iff i j i j' a b ha hb).1 this)
    · intro k hk
      simp only [Finset.mem_filter, Finset.mem_range] at hk
      obtain ⟨_, f, hf, e⟩ := hk
      obtain ⟨q, hq, hn⟩ := face_number hN hx ho hf
      obtain ⟨⟨l1, e1, h1⟩, _⟩ := hE.face s x o q k f hx ho hq hn hf
      have hll : l1 = l := by omega
      subst hll
      have hEi : (E q).1 = i := is_inj hH h1 hi
      obtain ⟨h2, a, ha⟩ := hE.slot q hq
      rw [hEi] at h2 ha
      have hj := lt_of_isSlot ha
      refine ⟨(E q).2, ?_, ?_⟩
      · simp only [Finset.mem_filter, Finset.mem_range, firstSide, decide_eq_true_eq]
        exact ⟨hj, by rw [h2, ← hEi]⟩
      · have := (face_faithful hN ho).name_unique (by rw [← h2] at hn; exact hn) (hv (E q).2 hj).1
        omega
    · intro j hj
      simp only [Finset.mem_filter, Finset.mem_range] at hj
      rw [(hvals hj.1).1, Option.getD_some]
  · rw [← Finset.sum_filter, ← Finset.sum_filter]
    symm
    refine Finset.sum_bij (fun j _ => v j) ?_ ?_ ?_ ?_
    · intro j hj
      simp only [Finset.mem_filter, Finset.mem_range, firstSide, decide_eq_true_eq] at hj
      obtain ⟨hj, he⟩ := hj
      obtain ⟨a, ha⟩ := isSlot_of (per := per) hj
      obtain ⟨hn, f, hf⟩ := hv j hj
      obtain ⟨hs1, c, hc⟩ := hE.slot _ (hN.range i j a ha)
      simp only [Finset.mem_filter, Finset.mem_range]
      refine ⟨(List.getElem?_eq_some_iff.1 hf).1, f, hf, ?_⟩
      obtain ⟨_, h⟩ := hE.face s x o _ _ f hx ho (hN.range i j a ha) hn hf
      rcases h with ⟨_, _, h⟩ | ⟨l', i', j', b, e', h1, hb, hne, h2⟩
      · exact absurd (h i j a ha rfl).symm he
      · have := two_sides hD hN hc hb ha (by rw [h2, hs1]) hs1.symm hne (fun h => he h.symm)
        cases this
        rw [e', is_unique hH h1 hi]
    · intro j hj j' hj' e
      simp only [Finset.mem_filter, Finset.mem_range, firstSide, decide_eq_true_eq] at hj hj'
      obtain ⟨a, ha⟩ := isSlot_of (per := per) hj.1
      obtain ⟨b, hb⟩ := isSlot_of (per := per) hj'.1
      have hn := (hv j hj.1).1
      have hn' := (hv j' hj'.1).1
      rw [← e] at hn'
      have := name_inj (face_faithful hN ho) (by omega) (hN.range i j a ha).1 (hN.range i j' b hb).1 hn hn'
      exact slots_apart hD ha hb ((hN.iff i j i j' a b ha hb).1 this)
    · intro k hk
      simp only [Finset.mem_filter, Finset.mem_range] at hk
      obtain ⟨_, f, hf, e⟩ := hk
      obtain ⟨q, hq, hn⟩ := face_number hN hx ho hf
      obtain ⟨_, h⟩ := hE.face s x o q k f hx ho hq hn hf
      rcases h with ⟨h, _⟩ | ⟨l', i', j', b, e', h1, hb, hne, h2⟩
      · have := unInit_neg; omega
      · have hll : l' = l := by omega
        subst hll
        have hEi : i' = i := is_inj hH h1 hi
        subst hEi
        have hj := lt_of_isSlot hb
        refine ⟨j', ?_, ?_⟩
        · simp only [Finset.mem_filter, Finset.mem_range, firstSide, decide_eq_true_eq]
          exact ⟨hj, by rw [h2]; exact fun h => hne h.symm⟩
        · have := (face_faithful hN ho).name_unique (by rw [← h2] at hn; exact hn) (hv j' hj).1
          omega
    · intro j hj
      simp only [Finset.mem_filter, Finset.mem_range] at hj
      rw [(hvals hj.1).1, (hvals hj.1).2, Option.getD_some, Option.getD_some]

/-- the loop over the faces of a cell -/
theorem gatherRow_spec (fr : Frame V) (d : Fields K V) (faces : List Face) (l : Nat) {m : K} (hm : d.vol[l]? = some m) :
    ∀ (row : List Int) (term : Nat → V) (acc : V), (∀ (j : Nat) (e : Int), row[j]? = some e → ∀ acc : V,
      gatherStep fr d faces l e acc = .ok (acc + m⁻¹ • term j)) →
    gatherRow fr d faces l row acc = .ok (acc + m⁻¹ • ∑ j ∈ Finset.range row.length, term j) := by
  intro row
  induction row with
  | nil => intro term acc _; simp [gatherRow]
  | cons e es ih =>
      intro term acc h
      simp only [gatherRow, h 0 e rfl acc, Res.ok_bind]
      rw [ih (fun j => term (j + 1)) _ (fun j e he => h (j + 1) e (by simpa using he)), List.length_cons, Finset.sum_range_succ', add_assoc,
        ← smul_add, add_comm (term 0)]

theorem gatherStep_spec (fr : Frame V) (hD : Distributed per cl nl G gc ranks) (hN : Numbered per cl nl G ranks outs F)
    (hE : Orient per cl G ranks outs F E) (hA : Agree cl ranks outs ds vol flux zone) {s : Nat} {x : RankIn} {o : RankOut} {d : Fields K V}
    (hx : ranks[s]? = some x) (ho : outs[s]? = some o) (hd : ds[s]? = some d) {l i j : Nat} {a : Slot} (hi : Is cl s x l i) (hoi : Owns cl s i)
    (ha : IsSlot per G i j a) {e : Int} (he : Gives o.c2f l j e) (acc : V) :
    gatherStep fr d o.faces l e acc = .ok (acc + (vol i)⁻¹ • if firstSide E F i j then flux (F i j) else turn fr (zone (F i j)) (-flux (F i j))) := by
  have hH := hD.holds s x hx
  obtain ⟨v, f, h1, hn, hf⟩ := own_face hN hx ho hi hoi ha
  have := gives_unique he h1
  subst this
  have hq := hN.range i j a ha
  obtain ⟨h2, h3⟩ := hA.faces s o d _ _ ho hd hn hq
  obtain ⟨⟨l1, e1, h4⟩, h5⟩ := hE.face s x o _ _ f hx ho hq hn hf
  obtain ⟨hs1, c, hc⟩ := hE.slot _ hq
  have hvol := hA.vols s x d i l hx hd hi
  by_cases hfs : E (F i j) = (i, j)
  · have hll : l1 = l := by rw [hfs] at h4; exact is_unique hH h4 hi
    subst hll
    simp [gatherStep, at64_ok hf, at64_ok h2, at64_ok h3, at64_ok hvol, cellIsFaceBack, e1, Res.assert_true, Res.ok_bind, fromFace2Cell_zero, firstSide, hfs]
  · have hne : l1 ≠ l := by
      rintro rfl
      have := is_inj hH h4 hi
      refine hfs ?_
      have h6 : (E (F i j)).2 = j := by
        rw [this] at hc hs1
        exact slots_apart hD hc ha ((hN.iff i _ i j c a hc ha).1 hs1)
      exact Prod.ext this h6
    have hsec : f.second = l := by
      rcases h5 with ⟨_, _, h⟩ | ⟨l', i', j', b, e', h6, hb, hne', h7⟩
      · exact absurd (h i j a ha rfl).symm hfs
      · have := two_sides hD hN hc hb ha (by rw [h7, hs1]) hs1.symm hne' (fun h => hfs h.symm)
        cases this
        rw [e', is_unique hH h6 hi]
    have hne' : ¬ ((l1 : Int) = (l : Int)) := by omega
    simp [gatherStep, at64_ok hf, at64_ok h2, at64_ok h3, at64_ok hvol, cellIsFaceBack, e1, hsec, Res.assert_true, Res.ok_bind, fromFace2Cell_one, firstSide, hfs, hne,
      hne']

end DNDSR.Flux
