import Verif.Spec.VtkOut
import Verif.Proof.GhostMap2
import Verif.Proof.TransPush
import Verif.Proof.MeshAdj
import Verif.Proof.Node2CellRun
import Verif.Proof.ElevChoose

namespace DNDSR.VtkOut

open DNDSR.IMap DNDSR.Elem DNDSR.Bits DNDSR.Faces DNDSR.MeshAdj

/-! ### arrays -/

theorem at64_ok {α : Type} {l : List α} {i : Nat} {x : α} (h : l[i]? = some x) : at64 l (i : Int) = .ok x := by
  simp only [at64, if_pos (Int.natCast_nonneg i), Int.toNat_natCast, h]

theorem set64_ok {α : Type} {l : List α} {i : Nat} (h : i < l.length) (x : α) : set64 l (i : Int) x = .ok (l.set i x) := by
  simp only [set64, Int.toNat_natCast]
  rw [if_pos (by omega)]

/-- bit `b` of entry `j` -/
def bitAt (a : List Nat) (j b : Nat) : Bool := (a[j]?.getD 0).testBit b

theorem orAt_spec (a : List Nat) (v x : Nat) (h : v < a.length) :
    ∃ a', orAt a (v : Int) x = .ok a' ∧ a'.length = a.length ∧
      ∀ j b, bitAt a' j b = true ↔ bitAt a j b = true ∨ (j = v ∧ x.testBit b = true) := by
  refine ⟨a.set v (a[v] ||| x), ?_, by simp, ?_⟩
  · rw [orAt, at64_ok (List.getElem?_eq_getElem h), Res.ok_bind, set64_ok h]
  · intro j b
    simp only [bitAt, List.getElem?_set]
    by_cases hj : v = j
    · subst hj
      simp [h, Nat.testBit_or]
    · rw [if_neg hj]
      constructor
      · exact Or.inl
      · rintro (h | ⟨rfl, _⟩)
        · exact h
        · exact absurd rfl hj

theorem flagRow_spec : ∀ (es : List (Int × Mark)) (a : List Nat), (∀ e ∈ es, 0 ≤ e.1 ∧ e.1 < a.length) →
    ∃ a', flagRow es a = .ok a' ∧ a'.length = a.length ∧
      ∀ j b, bitAt a' j b = true ↔ bitAt a j b = true ∨ ∃ e ∈ es, e.1 = (j : Int) ∧ e.2.toNat = b := by
  intro es
  induction es with
  | nil => intro a _; exact ⟨a, rfl, rfl, by simp⟩
  | cons e es ih =>
    intro a h
    obtain ⟨v, m⟩ := e
    obtain ⟨h0, h1⟩ := h (v, m) (by simp)
    obtain ⟨n, rfl⟩ := Int.eq_ofNat_of_zero_le h0
    obtain ⟨a1, e1, l1, s1⟩ := orAt_spec a n (1 <<< m.toNat) (by simp at h1; omega)
    obtain ⟨a2, e2, l2, s2⟩ := ih a1 (fun e he => by rw [l1]; exact h e (by simp [he]))
    refine ⟨a2, ?_, by omega, ?_⟩
    · simp only [flagRow]
      rw [e1, Res.ok_bind, e2]
    · intro j b
      rw [s2, s1, Nat.one_shiftLeft, Nat.testBit_two_pow]
      simp only [List.mem_cons, decide_eq_true_eq]
      constructor
      · rintro ((h | ⟨rfl, hb⟩) | ⟨e, he, h⟩)
        · exact Or.inl h
        · exact Or.inr ⟨_, Or.inl rfl, rfl, hb⟩
        · exact Or.inr ⟨e, Or.inr he, h⟩
      · rintro (h | ⟨e, rfl | he, h1, h2⟩)
        · exact Or.inl (Or.inl h)
        · exact Or.inl (Or.inr ⟨by simp at h1; omega, h2⟩)
        · exact Or.inr ⟨e, he, h1, h2⟩

theorem flagCells_spec : ∀ (cs : List Cell) (a : List Nat),
    (∀ c ∈ cs, c.pbi.length = c.nodes.length ∧ ∀ v ∈ c.nodes, 0 ≤ v ∧ v < a.length) →
    ∃ a', flagCells cs a = .ok a' ∧ a'.length = a.length ∧
      ∀ j b, bitAt a' j b = true ↔ bitAt a j b = true ∨
        ∃ c ∈ cs, ∃ e ∈ c.nodes.zip c.pbi, e.1 = (j : Int) ∧ e.2.toNat = b := by
  intro cs
  induction cs with
  | nil => intro a _; exact ⟨a, rfl, rfl, by simp⟩
  | cons c cs ih =>
    intro a h
    obtain ⟨h1, h2⟩ := h c (by simp)
    obtain ⟨a1, e1, l1, s1⟩ := flagRow_spec (c.nodes.zip c.pbi) a (fun e he => h2 e.1 (List.of_mem_zip he).1)
    obtain ⟨a2, e2, l2, s2⟩ := ih a1 (fun c hc => by rw [l1]; exact h c (by simp [hc]))
    refine ⟨a2, ?_, by omega, ?_⟩
    · simp only [flagCells, entries]
      rw [if_pos h1, Res.ok_bind, e1, Res.ok_bind, e2]
    · intro j b
      rw [s2, s1]
      simp only [List.mem_cons, exists_eq_or_imp, or_assoc]

/-! ### concatenation over the ranks -/

theorem flatten_at {α : Type} (fs : List (List α)) (r i : Nat) (f : List α) (x : α) (hf : fs[r]? = some f) (hx : f[i]? = some x) :
    fs.flatten[before (fs.map List.length) r + i]? = some x := by
  obtain ⟨hr, rfl⟩ := List.getElem?_eq_some_iff.1 hf
  have hb : before (fs.map List.length) r = (fs.take r).flatten.length := by
    rw [before, List.length_flatten, List.map_take]
  have hi := (List.getElem?_eq_some_iff.1 hx).1
  have h2 : (((fs.flatten.drop (fs.take r).flatten.length).take fs[r].length))[i]? = some x := by
    rw [flatten_block fs r hr]; exact hx
  rw [List.getElem?_take_of_lt hi, List.getElem?_drop] at h2
  rw [hb]; exact h2

/-- the entry `q` of an array distributed over the ranks -/
theorem pull_spec {α : Type} (d : α) {g : GOM} (fathers : List (List α)) (hg : Built (fathers.map List.length) g) (ghosts : List Int)
    (h : ∀ q ∈ ghosts, 0 ≤ q ∧ q < ((fathers.map List.length).sum : Nat)) :
    pull g fathers ghosts = .ok (ghosts.map (fun q => fathers.flatten[q.toNat]?.getD d)) := by
  rw [pull, forRanks_ok]
  refine ⟨by simp, fun i q hq => ⟨_, by rw [List.getElem?_map, hq]; rfl, ?_⟩⟩
  obtain ⟨h0, h1⟩ := h q (List.mem_of_getElem? hq)
  obtain ⟨r, ho⟩ := owns_exists h0 h1
  obtain ⟨hr, h2, h3⟩ := ho
  have hr' : r < fathers.length := by simpa using hr
  rw [search_of_owns hg ⟨hr, h2, h3⟩, Res.ok_bind]
  simp only
  rw [(idx_ok_iff _ _ _).2 (List.getElem?_eq_getElem hr'), Res.ok_bind]
  obtain ⟨n, hn⟩ := Int.eq_ofNat_of_zero_le (show 0 ≤ q - (before (fathers.map List.length) r : Int) by omega)
  rw [List.getElem_map] at h3
  have hn' : n < fathers[r].length := by omega
  rw [hn, at64_ok (List.getElem?_eq_getElem hn')]
  have := flatten_at fathers r n _ _ (List.getElem?_eq_getElem hr') (List.getElem?_eq_getElem hn')
  rw [show q.toNat = before (fathers.map List.length) r + n by omega, this]; rfl

theorem segment_map {α β : Type} (f : α → β) (l : List α) (st : List Nat) (r : Nat) :
    segment (l.map f) st r = (segment l st r).map f := by
  unfold segment
  split <;> simp [List.map_take, List.map_drop]

theorem built_of (l : List Nat) : ∃ g, setMPIAlignBcast (l.map (fun n : Nat => (n : Int))) = .ok g ∧ Built l g := by
  obtain ⟨g, hg⟩ := built_exists l
  exact ⟨g, hg, hg⟩

/-! ### the flags of the copies go back -/

theorem merge_spec {lens : List Nat} {r : Nat} {m : Map} (hm : Faithful lens r m) : ∀ (Z : List (Int × Nat)) (a : List Nat),
    (∀ z ∈ Z, Owns lens r z.1) → lens[r]? = some a.length →
    ∃ a', merge m (Z.map (fun z => z.2)) (Z.map (fun z => z.1)) a = .ok a' ∧ a'.length = a.length ∧
      ∀ j b, bitAt a' j b = true ↔ bitAt a j b = true ∨ ∃ z ∈ Z, z.1 = (before lens r : Int) + j ∧ z.2.testBit b = true := by
  intro Z
  induction Z with
  | nil => intro a _ _; exact ⟨a, rfl, rfl, by simp⟩
  | cons z Z ih =>
    intro a h hl
    obtain ⟨q, x⟩ := z
    have ho := h (q, x) (by simp)
    obtain ⟨hr, h1, h2⟩ := id ho
    obtain ⟨n, hn⟩ := Int.eq_ofNat_of_zero_le (show 0 ≤ q - (before lens r : Int) by simp at h1; omega)
    have hla : lens[r] = a.length := by
      have := (List.getElem?_eq_some_iff.1 hl).2; exact this
    have hna : n < a.length := by simp at h1 h2; omega
    obtain ⟨a1, e1, l1, s1⟩ := orAt_spec a n x hna
    obtain ⟨a2, e2, l2, s2⟩ := ih a1 (fun z hz => h z (by simp [hz])) (by rw [l1]; exact hl)
    refine ⟨a2, ?_, by omega, ?_⟩
    · simp only [List.map_cons, merge]
      rcases hm.searchAppend q with ⟨_, e⟩ | ⟨hc, _⟩ | ⟨hc, _⟩
      · rw [e, Res.ok_bind]
        simp only
        rw [Res.assert_true _ trivial, Res.ok_bind, hn, e1, Res.ok_bind, e2]
      · exact absurd ho hc
      · exact absurd ho hc
    · intro j b
      rw [s2, s1]
      simp only [List.mem_cons, exists_eq_or_imp, or_assoc]
      refine or_congr_right (or_congr_left (and_congr_left fun _ => ?_))
      constructor
      · rintro rfl; omega
      · intro h; omega

/-- position `k` of the copies' list belongs to the segment of the owner -/
theorem mem_segment {α : Type} {lens : List Nat} {req : List Int} {p : PullLocal} (h : LocalOk lens req p) (Z : List (Int × α))
    (hZ : Z.map (fun z => z.1) = p.ghostIndex) (r : Nat) (hr : r < lens.length) (z : Int × α) :
    z ∈ segment Z p.ghostStart r ↔ z ∈ Z ∧ Owns lens r z.1 := by
  have hb := h.start r (by omega)
  have he := h.start (r + 1) (by omega)
  generalize p.ghostIndex.countP (fun q => decide (q < (before lens r : Int))) = b at hb
  generalize p.ghostIndex.countP (fun q => decide (q < (before lens (r + 1) : Int))) = e at he
  simp only [segment, hb, he]
  have key : ∀ k (hk : k < Z.length), (b ≤ k ∧ k < e) ↔ Owns lens r Z[k].1 := fun k hk =>
    h.block r b e k Z[k].1 hr hb he (by rw [← hZ, List.getElem?_map, List.getElem?_eq_getElem hk]; rfl)
  constructor
  · intro hz
    obtain ⟨i, hi, rfl⟩ := List.mem_iff_getElem.1 hz
    have hi' : i < e - b ∧ i < Z.length - b := by
      rw [List.length_take, List.length_drop] at hi; omega
    rw [List.getElem_take, List.getElem_drop]
    exact ⟨List.getElem_mem _, (key (b + i) (by omega)).1 ⟨by omega, by omega⟩⟩
  · rintro ⟨hz, ho⟩
    obtain ⟨k, hk, rfl⟩ := List.mem_iff_getElem.1 hz
    obtain ⟨h1, h2⟩ := (key k hk).2 ho
    rw [List.mem_iff_getElem]
    refine ⟨k - b, by rw [List.length_take, List.length_drop]; omega, ?_⟩
    rw [List.getElem_take, List.getElem_drop]
    congr 1; omega

end DNDSR.VtkOut
