import Verif.Spec.SweepsDirect
import Verif.Proof.SweepsAll

/-! Helper lemmas for `Verif.Props.SweepsDirect`: the blocks. -/

namespace DNDSR.Direct

section
variable {R : Type} [Ring R] {S : LUStruct}

theorem matBlock_setDiag (hS : WF S) (B : Blocks R) {iP : Nat} (hi : iP < S.n) (A : R) :
    matBlock S (B.setDiag (rename S.n2o iP) A) iP iP = A ∧
    ∀ i < S.n, ∀ j, (i, j) ≠ (iP, iP) → matBlock S (B.setDiag (rename S.n2o iP) A) i j = matBlock S B i j := by
  constructor
  · simp [matBlock, diagBlock, Blocks.setDiag, upd]
  · intro i hi' j hne
    by_cases hij : i = j
    · subst hij
      have : rename S.n2o i ≠ rename S.n2o iP := fun h => hne (by rw [hS.perm.inj i hi' iP hi h])
      simp [matBlock, diagBlock, Blocks.setDiag, upd, this]
    · simp [matBlock, hij, lowBlock, uppBlock, Blocks.setDiag]

theorem matBlock_setLower (hS : WF S) (B : Blocks R) {iP jP q : Nat} (hi : iP < S.n) (hq : (rowOf S.low iP)[q]? = some jP) (A : R) :
    matBlock S (B.setLower (rename S.n2o iP) q A) iP jP = A ∧
    ∀ i < S.n, ∀ j, (i, j) ≠ (iP, jP) → matBlock S (B.setLower (rename S.n2o iP) q A) i j = matBlock S B i j := by
  have hlt := hS.lowBelow iP hi jP (List.mem_of_getElem? hq)
  constructor
  · rw [matBlock, if_neg (by omega), lowBlock_get hS _ hi hq, uppBlock_zero _ (fun h => by have := (hS.uppAbove iP hi jP h).1; omega), add_zero]
    simp [Blocks.setLower, upd]
  · intro i hi' j hne
    have hd : diagBlock S (B.setLower (rename S.n2o iP) q A) i = diagBlock S B i := rfl
    have hu : uppBlock S (B.setLower (rename S.n2o iP) q A) i j = uppBlock S B i j := rfl
    have hl : lowBlock S (B.setLower (rename S.n2o iP) q A) i j = lowBlock S B i j := by
      by_cases hj : j ∈ rowOf S.low i
      · obtain ⟨p, hp⟩ := List.getElem?_of_mem hj
        rw [lowBlock_get hS _ hi' hp, lowBlock_get hS _ hi' hp]
        by_cases hii : i = iP
        · subst hii
          have : p ≠ q := by
            rintro rfl
            rw [hq] at hp
            cases hp
            exact hne rfl
          simp [Blocks.setLower, upd, this]
        · have : rename S.n2o i ≠ rename S.n2o iP := fun h => hii (hS.perm.inj i hi' iP hi h)
          simp [Blocks.setLower, upd, this]
      · rw [lowBlock_zero _ hj, lowBlock_zero _ hj]
    rw [matBlock, matBlock, hd, hu, hl]

theorem matBlock_setUpper (hS : WF S) (B : Blocks R) {iP jP q : Nat} (hi : iP < S.n) (hq : (rowOf S.upp iP)[q]? = some jP) (A : R) :
    matBlock S (B.setUpper (rename S.n2o iP) q A) iP jP = A ∧
    ∀ i < S.n, ∀ j, (i, j) ≠ (iP, jP) → matBlock S (B.setUpper (rename S.n2o iP) q A) i j = matBlock S B i j := by
  have hlt := (hS.uppAbove iP hi jP (List.mem_of_getElem? hq)).1
  constructor
  · rw [matBlock, if_neg (by omega), uppBlock_get hS _ hi hq, lowBlock_zero _ (fun h => by have := hS.lowBelow iP hi jP h; omega), zero_add]
    simp [Blocks.setUpper, upd]
  · intro i hi' j hne
    have hd : diagBlock S (B.setUpper (rename S.n2o iP) q A) i = diagBlock S B i := rfl
    have hl : lowBlock S (B.setUpper (rename S.n2o iP) q A) i j = lowBlock S B i j := rfl
    have hu : uppBlock S (B.setUpper (rename S.n2o iP) q A) i j = uppBlock S B i j := by
      by_cases hj : j ∈ rowOf S.upp i
      · obtain ⟨p, hp⟩ := List.getElem?_of_mem hj
        rw [uppBlock_get hS _ hi' hp, uppBlock_get hS _ hi' hp]
        by_cases hii : i = iP
        · subst hii
          have : p ≠ q := by
            rintro rfl
            rw [hq] at hp
            cases hp
            exact hne rfl
          simp [Blocks.setUpper, upd, this]
        · have : rename S.n2o i ≠ rename S.n2o iP := fun h => hii (hS.perm.inj i hi' iP hi h)
          simp [Blocks.setUpper, upd, this]
      · rw [uppBlock_zero _ hj, uppBlock_zero _ hj]
    rw [matBlock, matBlock, hd, hu, hl]

/-- the block at old row `i`, old column `j` -/
def oldBlock (S : LUStruct) (B : Blocks R) (i j : Nat) : R := matBlock S B (rename S.o2n i) (rename S.o2n j)

end

end DNDSR.Direct

namespace DNDSR.Sweep

open DNDSR.Elem DNDSR.IMap DNDSR.MeshAdj DNDSR.Faces
open DNDSR.Flux (nSides at64_ok firstSide isSlot_of)
open DNDSR.Direct (LUStruct Blocks WF RowPosOk Re isReorder_re rename rowOf oldBlock matBlock foldRes foldRes_total)
open Matrix
open scoped Matrix.Module

variable {m : Nat} {K : Type} [Field K] [LinearOrder K]

theorem lastIndex_spec (o : Nat) : ∀ (row : List Nat) (p : Nat) (r : Option Nat),
    (∃ q, lastIndex (o : Int) row p r = some (p + q) ∧ row[q]? = some o) ∨ (o ∉ row ∧ lastIndex (o : Int) row p r = r) := by
  intro row
  induction row with
  | nil => intro p r; exact Or.inr ⟨by simp, rfl⟩
  | cons x xs ih =>
      intro p r
      rcases ih (p + 1) (if (o : Int) = x then some p else r) with ⟨q, h1, h2⟩ | ⟨h1, h2⟩
      · exact Or.inl ⟨q + 1, by rw [lastIndex, h1]; congr 1; omega, by simpa using h2⟩
      · by_cases h : (o : Int) = x
        · left
          have : o = x := by omega
          subst this
          exact ⟨0, by rw [lastIndex, h2, if_pos rfl]; rfl, rfl⟩
        · right
          refine ⟨?_, by rw [lastIndex, h2, if_neg h]⟩
          rw [List.mem_cons, not_or]
          exact ⟨fun e => h (by omega), h1⟩

theorem setLDU_spec {L : LUStruct} (hL : WF L) (hre : Re L.n L.o2n L.n2o) {l o : Nat} (hl : l < L.n) (ho : o < L.n) (hne : o ≠ l) {pos : Int}
    (hp : RowPosOk L.low L.upp (rename L.o2n l) (rename L.o2n o) pos) (A : Matrix (Fin m) (Fin m) K) (B : Blocks (Matrix (Fin m) (Fin m) K)) :
    ∃ B', setLDU L l pos A B = .ok B' ∧ B'.decomposed = B.decomposed ∧ oldBlock L B' l o = A ∧
      ∀ i < L.n, ∀ j < L.n, (i, j) ≠ (l, o) → oldBlock L B' i j = oldBlock L B i j := by
  have hlP := hre.oldLt l hl
  have hback := hre.oldNew l hl
  have hlo := hL.lowOld _ hlP
  have hup := hL.uppOld _ hlP
  rw [hback] at hlo hup
  have hinj : ∀ i < L.n, ∀ j < L.n, (i, j) ≠ (l, o) → (rename L.o2n i, rename L.o2n j) ≠ (rename L.o2n l, rename L.o2n o) := by
    intro i hi j hj h e
    apply h
    have e1 := congrArg (fun p => (rename L.n2o p.1, rename L.n2o p.2)) e
    simpa only [hre.oldNew i hi, hre.oldNew j hj, hre.oldNew l hl, hre.oldNew o ho] using e1
  simp only [setLDU, (idx_ok_iff _ _ _).2 hlo, (idx_ok_iff _ _ _).2 hup, Res.ok_bind, List.length_map]
  rcases hp with ⟨h1, q, e, hq⟩ | ⟨h1, q, e, hq⟩ | ⟨h1, _⟩
  · have hql : q < (rowOf L.low (rename L.o2n l)).length := (List.getElem?_eq_some_iff.1 hq).1
    rw [if_neg (by omega), if_neg (by omega), if_pos (by omega), show pos.toNat - 1 = q by omega]
    obtain ⟨h2, h3⟩ := Direct.matBlock_setLower hL B hlP hq A
    rw [hback] at h2 h3
    refine ⟨_, rfl, rfl, h2, fun i hi j hj hij => h3 _ (hre.oldLt i hi) _ (hinj i hi j hj hij)⟩
  · have hql : q < (rowOf L.upp (rename L.o2n l)).length := (List.getElem?_eq_some_iff.1 hq).1
    rw [if_neg (by omega), if_neg (by omega), if_neg (by omega), if_pos (by omega), show pos.toNat - 1 - (rowOf L.low (rename L.o2n l)).length = q by omega]
    obtain ⟨h2, h3⟩ := Direct.matBlock_setUpper hL B hlP hq A
    rw [hback] at h2 h3
    refine ⟨_, rfl, rfl, h2, fun i hi j hj hij => h3 _ (hre.oldLt i hi) _ (hinj i hi j hj hij)⟩
  · exfalso
    have := congrArg (rename L.n2o) h1
    rw [hre.oldNew o ho, hre.oldNew l hl] at this
    exact hne this

/-- `v` is what the row has for column `o`: the coupling of the last face with neighbour `o`, or `w` if there is none -/
def RowVal (nbr : Nat → Option (Nat × ((Fin m → K) → Fin m → K))) (len o : Nat) (w v : Matrix (Fin m) (Fin m) K) : Prop :=
  (∃ j < len, ∃ c, nbr j = some (o, c) ∧ (∀ j' < len, j < j' → ∀ c', nbr j' ≠ some (o, c')) ∧ v = asMatrix c) ∨
  ((∀ j < len, ∀ c, nbr j ≠ some (o, c)) ∧ v = w)

theorem assembleRow_spec (S : Sys m K) {L : LUStruct} (hL : WF L) (hre : Re L.n L.o2n L.n2o) (hn : L.n = S.n) {l : Nat} (hl : l < L.n)
    (adjRow : List Nat) (posRow : List Int) (hpos : ∀ (p o : Nat), adjRow[p]? = some o → ∃ pos, posRow[p]? = some pos ∧ RowPosOk L.low L.upp (rename L.o2n l) (rename L.o2n o) pos)
    {len : Nat} : ∀ (row : List Int) (nbr : Nat → Option (Nat × ((Fin m → K) → Fin m → K))) (B : Blocks (Matrix (Fin m) (Fin m) K)), FitRow S l len row nbr →
    (∀ j < row.length, ∀ o c, nbr j = some (o, c) → o ≠ l ∧ (o < L.n → o ∈ adjRow)) →
    ∃ B', assembleRow S L adjRow posRow l row B = .ok B' ∧ B'.decomposed = B.decomposed ∧
      (∀ i < L.n, ∀ o < L.n, i ≠ l → oldBlock L B' i o = oldBlock L B i o) ∧
      ∀ o < L.n, o ≠ l → RowVal nbr row.length o (oldBlock L B l o) (oldBlock L B' l o) := by
  intro row
  induction row with
  | nil =>
      intro nbr B _ _
      exact ⟨B, rfl, rfl, fun _ _ _ _ _ => rfl, fun o _ _ => Or.inr ⟨fun j hj => absurd hj (by simp), rfl⟩⟩
  | cons e es ih =>
      intro nbr B h hmem
      have htail : FitRow S l len es (fun j => nbr (j + 1)) := fun j e he => h (j + 1) e (by simpa using he)
      have hmem' : ∀ j < es.length, ∀ o c, nbr (j + 1) = some (o, c) → o ≠ l ∧ (o < L.n → o ∈ adjRow) :=
        fun j hj o c => hmem (j + 1) (by simpa using hj) o c
      have hshift : ∀ {o : Nat} {w v : Matrix (Fin m) (Fin m) K}, (∀ c, nbr 0 ≠ some (o, c)) → RowVal (fun j => nbr (j + 1)) es.length o w v → RowVal nbr (e :: es).length o w v := by
        intro o w v h0 hv
        rcases hv with ⟨j, hj, c, h1, h2, h3⟩ | ⟨h1, h2⟩
        · refine Or.inl ⟨j + 1, by simpa using hj, c, h1, ?_, h3⟩
          intro j' hj' hlt
          obtain ⟨k, rfl⟩ : ∃ k, j' = k + 1 := ⟨j' - 1, by omega⟩
          exact h2 k (by simpa using hj') (by omega)
        · refine Or.inr ⟨?_, h2⟩
          intro j hj
          cases j with
          | zero => exact h0
          | succ k => exact h1 k (by simpa using hj)
      obtain ⟨f, h1, h2⟩ := h 0 e rfl
      simp only [assembleRow, h1, Res.ok_bind]
      rcases h2 with ⟨h2, h3⟩ | ⟨o, c, h2, h3, h4, h5⟩
      · rw [if_neg (by rw [h3]; simp)]
        obtain ⟨B', q1, q2, q3, q4⟩ := ih _ B htail hmem'
        exact ⟨B', q1, q2, q3, fun o ho hne => hshift (fun c => by rw [h2]; simp) (q4 o ho hne)⟩
      · rw [h4]
        obtain ⟨hol, hadj⟩ := hmem 0 (by simp) o _ h2
        have hu : ((o : Int)) ≠ unInit := by have := unInit_neg; omega
        by_cases hon : o < L.n
        · rw [if_pos ⟨hu, by omega, by omega⟩]
          rcases lastIndex_spec o adjRow 0 none with ⟨q, g1, g2⟩ | ⟨g1, _⟩
          · rw [Nat.zero_add] at g1
            rw [g1]
            obtain ⟨pos, p1, p2⟩ := hpos q o g2
            obtain ⟨B1, s1, s2, s3, s4⟩ := setLDU_spec hL hre hl hon hol p2 (asMatrix (c (if f.first = (l : Int) then false else true))) B
            simp only [(idx_ok_iff _ _ _).2 p1, h3, Res.ok_bind, s1]
            obtain ⟨B', q1, q2, q3, q4⟩ := ih _ B1 htail hmem'
            refine ⟨B', q1, by rw [q2, s2], ?_, ?_⟩
            · intro i hi o' ho' hne
              rw [q3 i hi o' ho' hne, s4 i hi o' ho' (fun h => hne (congrArg Prod.fst h))]
            · intro o' ho' hne
              have hv := q4 o' ho' hne
              by_cases hoo : o' = o
              · subst hoo
                rcases hv with ⟨j, hj, c', w1, w2, w3⟩ | ⟨w1, w2⟩
                · refine Or.inl ⟨j + 1, by simpa using hj, c', w1, ?_, w3⟩
                  intro j' hj' hlt
                  obtain ⟨k, rfl⟩ : ∃ k, j' = k + 1 := ⟨j' - 1, by omega⟩
                  exact w2 k (by simpa using hj') (by omega)
                · refine Or.inl ⟨0, by simp, _, h2, ?_, by rw [w2, s3]⟩
                  intro j' hj' hlt
                  obtain ⟨k, rfl⟩ : ∃ k, j' = k + 1 := ⟨j' - 1, by omega⟩
                  exact w1 k (by simpa using hj')
              · rw [s4 l hl o' ho' (fun h => hoo (congrArg Prod.snd h))] at hv
                exact hshift (fun c' => by rw [h2]; intro h; exact hoo (congrArg Prod.fst (Option.some.inj h)).symm) hv
          · exact absurd (hadj hon) g1
        · rw [if_neg (by rintro ⟨_, _, h⟩; omega)]
          obtain ⟨B', q1, q2, q3, q4⟩ := ih _ B htail hmem'
          refine ⟨B', q1, q2, q3, fun o' ho' hne => hshift (fun c' => ?_) (q4 o' ho' hne)⟩
          rw [h2]; intro h
          have := congrArg Prod.fst (Option.some.inj h)
          simp only at this
          omega


/-- the neighbours of a row that are own cells, in the order of the faces -/
def ownNbrs (n : Nat) (nbr : Nat → Option (Nat × ((Fin m → K) → Fin m → K))) (len : Nat) : List Nat :=
  (List.range len).filterMap fun j => (nbr j).bind fun p => if p.1 < n then some p.1 else none

theorem ownNbrs_succ (n : Nat) (nbr : Nat → Option (Nat × ((Fin m → K) → Fin m → K))) (len : Nat) :
    ownNbrs n nbr (len + 1) = (((nbr 0).bind fun p => if p.1 < n then some p.1 else none).toList ++ ownNbrs n (fun j => nbr (j + 1)) len) := by
  rw [ownNbrs, List.range_succ_eq_map, List.filterMap_cons, ownNbrs, List.filterMap_map]
  cases (nbr 0).bind fun p => if p.1 < n then some p.1 else none <;> rfl

theorem mem_ownNbrs {n : Nat} {nbr : Nat → Option (Nat × ((Fin m → K) → Fin m → K))} {len o : Nat} :
    o ∈ ownNbrs n nbr len ↔ o < n ∧ ∃ j < len, ∃ c, nbr j = some (o, c) := by
  simp only [ownNbrs, List.mem_filterMap, List.mem_range]
  constructor
  · rintro ⟨j, hj, h⟩
    cases hn : nbr j with
    | none => simp [hn] at h
    | some p =>
        rw [hn, Option.bind_some] at h
        split at h
        · next hp =>
          cases Option.some.inj h
          exact ⟨hp, j, hj, p.2, hn⟩
        · cases h
  · rintro ⟨ho, j, hj, c, h⟩
    exact ⟨j, hj, by rw [h, Option.bind_some, if_pos ho]⟩

theorem cell2cellRow_spec (S : Sys m K) {l len : Nat} : ∀ (row : List Int) (nbr : Nat → Option (Nat × ((Fin m → K) → Fin m → K))), FitRow S l len row nbr →
    (∀ e ∈ row, ∃ f, at64 S.faces e = .ok f ∧ (f.first = l ∨ f.second = l)) →
    cell2cellRow S l row = .ok (ownNbrs S.n nbr row.length) := by
  intro row
  induction row with
  | nil => intro nbr _ _; rfl
  | cons e es ih =>
      intro nbr h ht
      have htail := ih (fun j => nbr (j + 1)) (fun j e he => h (j + 1) e (by simpa using he)) (fun e he => ht e (by simp [he]))
      obtain ⟨f, h1, h2⟩ := h 0 e rfl
      obtain ⟨f', h1', h3⟩ := ht e (by simp)
      rw [h1] at h1'; cases Res.ok.inj h1'
      rw [List.length_cons, ownNbrs_succ]
      simp only [cell2cellRow, cellFaceOther, h1, Res.ok_bind, Res.assert_true _ h3]
      rcases h2 with ⟨h2, h4⟩ | ⟨o, c, h2, _, h4, _⟩
      · rw [h4, if_neg (by simp), h2, htail]; rfl
      · rw [h4, h2]
        have hu : ((o : Int)) ≠ unInit := by have := unInit_neg; omega
        by_cases hon : o < S.n
        · rw [if_pos ⟨hu, by omega⟩, if_neg (by omega), htail]
          simp [hon, Res.ok_bind]
        · rw [if_neg (by rintro ⟨_, h⟩; omega), htail]
          simp [hon]

/-- a linear map is the product with the matrix of the images of the unit vectors -/
theorem asMatrix_smul (c : (Fin m → K) → Fin m → K) (hc : (∀ v w, c (v + w) = c v + c w) ∧ ∀ (a : K) v, c (a • v) = a • c v) (v : Fin m → K) :
    asMatrix c • v = c v := by
  let f : (Fin m → K) →ₗ[K] (Fin m → K) := ⟨⟨c, hc.1⟩, hc.2⟩
  have h := LinearMap.pi_apply_eq_sum_univ f v
  have h' : c v = ∑ i, v i • c (Pi.single i 1) := by
    rw [show c v = f v from rfl, h]
    refine Finset.sum_congr rfl fun i _ => ?_
    congr 1
    show c _ = c _
    congr 1
    funext j
    rw [Pi.single_apply]
    simp [eq_comm]
  rw [h']
  funext a
  rw [Matrix.Module.smul_def]
  simp only [asMatrix, Finset.sum_apply, Pi.smul_apply, smul_eq_mul]
  exact Finset.sum_congr rfl fun k _ => mul_comm _ _

open Classical in
/-- a row of the matrix, times a vector -/
theorem row_equation (W : Nat → Matrix (Fin m) (Fin m) K) (A : Matrix (Fin m) (Fin m) K) (nbr : Nat → Option (Nat × ((Fin m → K) → Fin m → K))) {n l len : Nat} (hl : l < n)
    (hd : W l = A) (hv : ∀ o < n, o ≠ l → RowVal nbr len o 0 (W o)) (hne : ∀ j < len, ∀ o c, nbr j = some (o, c) → o ≠ l)
    (hlin : ∀ j < len, ∀ o c, nbr j = some (o, c) → (∀ v w, c (v + w) = c v + c w) ∧ ∀ (a : K) v, c (a • v) = a • c v) (y : Nat → Fin m → K) :
    (∑ o ∈ Finset.range n, W o • y o) = A *ᵥ y l + ∑ j ∈ Finset.range len, match nbr j with
      | none => 0
      | some p => if p.1 < n ∧ (∀ j' < len, j < j' → ∀ c, nbr j' ≠ some (p.1, c)) then p.2 (y p.1) else 0 := by
  let T : Nat → Nat → Fin m → K := fun j o => match nbr j with
    | none => 0
    | some p => if p.1 = o ∧ (∀ j' < len, j < j' → ∀ c, nbr j' ≠ some (p.1, c)) then p.2 (y p.1) else 0
  have hTn : ∀ j o, nbr j = none → T j o = 0 := fun j o h => by simp only [T, h]
  have hTs : ∀ j o p, nbr j = some p → T j o = if p.1 = o ∧ (∀ j' < len, j < j' → ∀ c, nbr j' ≠ some (p.1, c)) then p.2 (y p.1) else 0 :=
    fun j o p h => by simp only [T, h]
  have hT0 : ∀ j o, (∀ c, nbr j ≠ some (o, c)) → T j o = 0 := by
    intro j o h
    cases hn : nbr j with
    | none => exact hTn j o hn
    | some p =>
        rw [hn] at h
        have : p.1 ≠ o := fun e => h p.2 (by rw [← e])
        rw [hTs j o p hn, if_neg (fun h => this h.1)]
  have h1 : ∀ o ∈ Finset.range n, W o • y o = (if o = l then A *ᵥ y l else 0) + ∑ j ∈ Finset.range len, T j o := by
    intro o ho
    rw [Finset.mem_range] at ho
    by_cases hol : o = l
    · subst hol
      rw [if_pos rfl, Finset.sum_eq_zero (fun j hj => hT0 j o fun c h => hne j (Finset.mem_range.1 hj) o c h rfl), add_zero, hd]
      rfl
    · rw [if_neg hol, zero_add]
      rcases hv o ho hol with ⟨j, hj, c, w1, w2, w3⟩ | ⟨w1, w2⟩
      · rw [Finset.sum_eq_single j, w3, asMatrix_smul c (hlin j hj o c w1)]
        · rw [hTs j o _ w1, if_pos ⟨rfl, w2⟩]
        · intro j' hj' hjj
          rw [Finset.mem_range] at hj'
          by_cases hn : ∃ c', nbr j' = some (o, c')
          · obtain ⟨c', hc'⟩ := hn
            have : ¬ j < j' := fun h => w2 j' hj' h c' hc'
            rw [hTs j' o _ hc', if_neg (fun h => h.2 j hj (by omega) c w1)]
          · exact hT0 j' o fun c' h => hn ⟨c', h⟩
        · intro h; exact absurd (Finset.mem_range.2 hj) h
      · rw [w2, zero_smul, Finset.sum_eq_zero (fun j hj => hT0 j o (w1 j (Finset.mem_range.1 hj)))]
  rw [Finset.sum_congr rfl h1, Finset.sum_add_distrib, Finset.sum_ite_eq' , if_pos (Finset.mem_range.2 hl), Finset.sum_comm]
  congr 1
  refine Finset.sum_congr rfl fun j _ => ?_
  cases hn : nbr j with
  | none => exact Finset.sum_eq_zero fun o _ => hT0 j o (by rw [hn]; simp)
  | some p =>
      have : ∀ o, T j o = if o = p.1 then (if ∀ j' < len, j < j' → ∀ c, nbr j' ≠ some (p.1, c) then p.2 (y p.1) else 0) else 0 := by
        intro o
        rw [hTs j o p hn]
        by_cases ho : o = p.1
        · simp [ho]
        · rw [if_neg (fun h => ho h.1.symm), if_neg ho]
      simp only [this, Finset.sum_ite_eq', Finset.mem_range]
      by_cases hp : p.1 < n <;> simp [hp]

end DNDSR.Sweep
