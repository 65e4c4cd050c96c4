import Verif.Proof.VtkOutNumber

namespace DNDSR.VtkOut

open DNDSR.IMap DNDSR.Elem DNDSR.Bits DNDSR.Faces DNDSR.MeshAdj

/-- what the point `e` of a rank with the own nodes `x` is -/
noncomputable def val (P : Per.Periodicity) (x : List Per.V3) (e : Nat × Nat) : Per.V3 × Nat :=
  (Elev.forward P (BitVec.ofNat 8 e.2) (x.getD e.1 0), e.1)

theorem forward_zero (P : Per.Periodicity) (x : Per.V3) : Elev.forward P (BitVec.ofNat 8 0) x = x := rfl

theorem stores_spec (P : Per.Periodicity) {nOwn i f : Nat} {fs : List Nat} {row : List Int} (h : RowOk i f nOwn (made 0 fs) row)
    (hi : i < nOwn) (x : List Per.V3) (y : Per.V3) (hx : x[i]? = some y) : ∃ W, stores P i y row = .ok W ∧
      (∀ w ∈ W, ∃ p b : Nat, w.1 = p ∧ (points nOwn fs)[p]? = some (i, b) ∧ w.2 = val P x (i, b)) ∧
      (∀ p b : Nat, b < 8 → (b = 0 ∨ f.testBit b = true) → (points nOwn fs)[p]? = some (i, b) → ∃ w ∈ W, w.1 = (p : Int)) := by
  have hy : x.getD i 0 = y := by rw [List.getD_eq_getElem?_getD, hx]; rfl
  have hstep : ∀ (k b : Nat), bits7[k]? = some b → 1 ≤ b ∧ b ≤ 7 := by
    intro k b hb
    have := List.mem_of_getElem? hb
    simp only [bits7, List.mem_cons, List.not_mem_nil, or_false] at this
    omega
  obtain ⟨more, m1, m2, m3⟩ := N2C.forRanks_all (fun _ (b : Nat) => do
      let v ← at64 row b
      if v ≠ unInit then do
        let y ← Per.coordByBits P y (BitVec.ofNat 8 b)
        .ok [(v, (y, i))]
      else .ok []) (fun _ b (ws : List (Int × (Per.V3 × Nat))) => (f.testBit b = false → ws = []) ∧
        (f.testBit b = true → ∃ p : Nat, (points nOwn fs)[p]? = some (i, b) ∧ ws = [((p : Int), val P x (i, b))])) bits7
    (fun k b hb => by
      obtain ⟨h1, h2⟩ := hstep k b hb
      cases hf : f.testBit b with
      | false =>
        refine ⟨[], ?_, fun _ => rfl, fun h => by cases h⟩
        rw [at64_ok (h.no b h1 h2 hf), Res.ok_bind, if_neg (by simp)]
      | true =>
        obtain ⟨p, p1, p2⟩ := h.points hi b (by omega) (Or.inr hf)
        refine ⟨[((p : Int), val P x (i, b))], ?_, fun h => (by cases h), fun _ => ⟨p, p2, rfl⟩⟩
        rw [at64_ok p1, Res.ok_bind, if_pos (by unfold unInit; omega), Elev.coordByBits_eq, Res.ok_bind]
        simp only [val, hy])
  refine ⟨((i : Int), (y, i)) :: more.flatten, by rw [stores, m1]; rfl, ?_, ?_⟩
  · intro w hw
    rcases List.mem_cons.1 hw with rfl | hw
    · obtain ⟨p, p1, p2⟩ := h.points hi 0 (by omega) (Or.inl rfl)
      rw [h.zero] at p1
      have hip : i = p := by have := Option.some.inj p1; omega
      subst hip
      exact ⟨i, 0, rfl, p2, by simp only [val, hy, forward_zero]⟩
    · obtain ⟨ws, hws, hw⟩ := List.mem_flatten.1 hw
      obtain ⟨k, hk⟩ := List.mem_iff_getElem?.1 hws
      have hkl : k < bits7.length := by rw [← m2]; exact (List.getElem?_eq_some_iff.1 hk).1
      obtain ⟨a1, a2⟩ := m3 k _ ws (List.getElem?_eq_getElem hkl) hk
      cases hf : f.testBit (bits7[k]'hkl) with
      | false => rw [a1 hf] at hw; cases hw
      | true =>
        obtain ⟨p, p1, rfl⟩ := a2 hf
        rw [List.mem_singleton] at hw
        subst hw
        exact ⟨p, _, rfl, p1, rfl⟩
  · intro p b hb hf hp
    by_cases h0 : b = 0
    · subst h0
      obtain ⟨p', p1, p2⟩ := h.points hi 0 (by omega) (Or.inl rfl)
      rw [h.zero] at p1
      have hip : i = p' := by have := Option.some.inj p1; omega
      subst hip
      have := (List.getElem?_inj (List.getElem?_eq_some_iff.1 hp).1 (points_nodup nOwn fs)).1 (hp.trans p2.symm)
      exact ⟨_, List.mem_cons_self, by rw [this]⟩
    · have hf := hf.resolve_left h0
      have hk := bits7_get b (by omega) (by omega)
      have hkl : b - 1 < more.length := by rw [m2]; exact (List.getElem?_eq_some_iff.1 hk).1
      obtain ⟨_, a2⟩ := m3 (b - 1) b _ hk (List.getElem?_eq_getElem hkl)
      obtain ⟨p', p1, p2⟩ := a2 hf
      have := (List.getElem?_inj (List.getElem?_eq_some_iff.1 hp).1 (points_nodup nOwn fs)).1 (hp.trans p1.symm)
      subst this
      refine ⟨_, List.mem_cons_of_mem _ (List.mem_flatten.2 ⟨_, List.getElem_mem hkl, by rw [p2]; exact List.mem_singleton.2 rfl⟩), rfl⟩

theorem recrLocal_spec (P : Per.Periodicity) (s : Rk) (fs : List Nat) (hl : fs.length = s.coords.length)
    (h0 : ∀ f ∈ fs, f.testBit 0 = true) : ∃ rows,
      recrLocal P s fs = .ok (rows, (points s.coords.length fs).map (val P s.coords)) ∧ rows.length = s.coords.length ∧
      ∀ (k f : Nat) (row : List Int), fs[k]? = some f → rows[k]? = some row → RowOk k f s.coords.length (made 0 fs) row := by
  obtain ⟨rows, r1, r2, r3⟩ := numberAll_spec s.coords.length fs 0 0 h0
  simp only [Nat.zero_add, Nat.add_zero] at r1 r3
  obtain ⟨ws, w1, w2, w3⟩ := N2C.forRanks_all (fun i (p : Per.V3 × List Int) => stores P i p.1 p.2)
    (fun i p W => (∀ w ∈ W, ∃ p b : Nat, w.1 = p ∧ (points s.coords.length fs)[p]? = some (i, b) ∧ w.2 = val P s.coords (i, b)) ∧
      (∀ p b : Nat, b < 8 → (b = 0 ∨ bitAt fs i b = true) → (points s.coords.length fs)[p]? = some (i, b) → ∃ w ∈ W, w.1 = (p : Int)))
    (s.coords.zip rows) (fun i p hp => by
      obtain ⟨p1, p2⟩ := List.getElem?_zip_eq_some.1 hp
      have hi := (List.getElem?_eq_some_iff.1 p1).1
      have hf : fs[i]? = some (fs[i]'(by omega)) := List.getElem?_eq_getElem _
      obtain ⟨W, a1, a2, a3⟩ := stores_spec P (r3 i _ _ hf p2) hi s.coords p.1 p1
      refine ⟨W, a1, a2, fun p b hb hc => a3 p b hb ?_⟩
      rcases hc with hc | hc
      · exact Or.inl hc
      · rw [bitAt, hf] at hc; exact Or.inr hc)
  have hzl : (s.coords.zip rows).length = s.coords.length := by rw [List.length_zip]; omega
  have hpl : (made 0 fs).length + s.coords.length = (points s.coords.length fs).length := by simp [points]; omega
  obtain ⟨a, a1, a2, a3⟩ := fill_spec (fun p => val P s.coords ((points s.coords.length fs).getD p (0, 0))) ws.flatten
    (List.replicate ((made 0 fs).length + s.coords.length) none) (by
      intro w hw
      obtain ⟨W, hW, hw⟩ := List.mem_flatten.1 hw
      obtain ⟨i, hi⟩ := List.mem_iff_getElem?.1 hW
      have hil := (List.getElem?_eq_some_iff.1 hi).1
      have hz : (s.coords.zip rows)[i]? = some ((s.coords.zip rows)[i]'(by omega)) := List.getElem?_eq_getElem _
      obtain ⟨p, b, e1, e2, e3⟩ := (w3 i _ W hz hi).1 w hw
      refine ⟨p, e1, by rw [List.length_replicate, hpl]; exact (List.getElem?_eq_some_iff.1 e2).1, ?_⟩
      rw [e3, List.getD_eq_getElem?_getD, e2]; rfl)
  rw [List.length_replicate] at a2 a3
  have ha : a = ((points s.coords.length fs).map (val P s.coords)).map some := by
    apply List.ext_getElem?
    intro p
    by_cases hp : p < (points s.coords.length fs).length
    · rw [(a3 p (by omega)).1 ?_]
      · rw [List.getElem?_map, List.getElem?_map, List.getElem?_eq_getElem hp, List.getD_eq_getElem?_getD, List.getElem?_eq_getElem hp]; rfl
      · have he := List.getElem?_eq_getElem hp
        generalize (points s.coords.length fs)[p] = e at he
        obtain ⟨i, b⟩ := e
        obtain ⟨m1, m2⟩ := (mem_points s.coords.length fs hl i b).1 (List.mem_of_getElem? he)
        have hil : i < ws.length := by omega
        have hz : (s.coords.zip rows)[i]? = some ((s.coords.zip rows)[i]'(by omega)) := List.getElem?_eq_getElem _
        obtain ⟨w, hw, hwp⟩ := (w3 i _ _ hz (List.getElem?_eq_getElem hil)).2 p b (by omega)
          (m2.imp_right (fun h => h.2.2)) he
        exact ⟨w, List.mem_flatten.2 ⟨_, List.getElem_mem hil, hw⟩, hwp⟩
    · rw [List.getElem?_eq_none (by omega), List.getElem?_eq_none (by simp; omega)]
  refine ⟨rows, ?_, by omega, r3⟩
  rw [recrLocal, r1, Res.ok_bind]
  simp only
  rw [w1, Res.ok_bind, a1, Res.ok_bind, ha, whole_spec, Res.ok_bind]

end DNDSR.VtkOut
