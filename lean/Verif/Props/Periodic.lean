import Verif.Model.Periodic
import Verif.Spec.Periodic
import Mathlib.Tactic.Abel
import Mathlib.Tactic.NormNum
import Mathlib.Tactic.Ring
import Mathlib.Tactic.FinCases
import Mathlib.Tactic.Linarith
import Mathlib.LinearAlgebra.Matrix.NonsingularInverse
import Mathlib.Algebra.BigOperators.Fin

/-!
# Periodic transforms (C20)
-/

namespace DNDSR.Per

open Matrix

/-- the index computed for an id is the axis of that id; other ids abort -/
theorem slot_spec (id : Int) : slot id = match axisOf id with | some i => .ok i | none => .abort := by
  by_cases h : isPeriodic id
  · have h' := h
    simp only [isPeriodic, Bool.or_eq_true, beq_iff_eq] at h'
    rcases h' with ((((rfl | rfl) | rfl) | rfl) | rfl) | rfl <;> rfl
  · have hs : slot id = .abort := by unfold slot; rw [if_neg h]
    have ha : axisOf id = none := by
      unfold axisOf
      split <;> first | rfl | exact absurd rfl h
    rw [hs, ha]

variable {P : Periodicity}

theorem slot_ok {id : Int} {i : Fin 4} (h : axisOf id = some i) : slot id = .ok i := by rw [slot_spec, h]

/-- **C20** (ids) The transforms succeed exactly for the ids of periodic boundaries. -/
theorem transCoord_total (c : V3) (id : Int) :
    (∃ r, transCoord P c id = .ok r) ∧ (∃ r, transCoordBack P c id = .ok r) ∨
    transCoord P c id = .abort ∧ transCoordBack P c id = .abort ∧ axisOf id = none := by
  unfold transCoord transCoordBack
  rw [slot_spec]
  cases axisOf id with
  | none => exact Or.inr ⟨rfl, rfl, rfl⟩
  | some i => exact Or.inl ⟨⟨_, rfl⟩, ⟨_, rfl⟩⟩

/-- **C20** (motion) The transform turns the point about the centre of the axis and then shifts it: it takes the centre to the centre plus
the translation, and differences to rotated differences. -/
theorem transCoord_motion {id : Int} {i : Fin 4} (h : axisOf id = some i) (a b : V3) : ∃ a' b' c',
    transCoord P a id = .ok a' ∧ transCoord P b id = .ok b' ∧ transCoord P (P.rotationCenter i) id = .ok c' ∧
    a' - b' = P.rotation i *ᵥ (a - b) ∧ c' = P.rotationCenter i + P.translation i := by
  unfold transCoord
  rw [slot_ok h]
  refine ⟨_, _, _, rfl, rfl, rfl, ?_, ?_⟩
  · have e : a - b = (a - P.rotationCenter i) - (b - P.rotationCenter i) := by abel
    rw [e, Matrix.mulVec_sub (P.rotation i) (a - P.rotationCenter i)]
    generalize P.rotation i *ᵥ (a - P.rotationCenter i) = x
    generalize P.rotation i *ᵥ (b - P.rotationCenter i) = y
    abel
  · rw [sub_self, Matrix.mulVec_zero, zero_add]

/-- **C20** (round trip) With an orthogonal rotation, back after forth and forth after back are the identity. -/
theorem transCoord_back {id : Int} {i : Fin 4} (h : axisOf id = some i) (hR : Rigid (P.rotation i)) (c : V3) :
    (transCoord P c id).bind (fun r => transCoordBack P r id) = .ok c ∧
    (transCoordBack P c id).bind (fun r => transCoord P r id) = .ok c := by
  unfold transCoord transCoordBack
  rw [slot_ok h]
  constructor
  · show Res.ok _ = Res.ok c
    congr 1
    have e : P.rotation i *ᵥ (c - P.rotationCenter i) + P.rotationCenter i + P.translation i - P.translation i - P.rotationCenter i =
        P.rotation i *ᵥ (c - P.rotationCenter i) := by abel
    rw [e, Matrix.mulVec_mulVec, hR.1, Matrix.one_mulVec]
    abel
  · show Res.ok _ = Res.ok c
    congr 1
    have e : (P.rotation i)ᵀ *ᵥ (c - P.translation i - P.rotationCenter i) + P.rotationCenter i - P.rotationCenter i =
        (P.rotation i)ᵀ *ᵥ (c - P.translation i - P.rotationCenter i) := by abel
    rw [e, Matrix.mulVec_mulVec, hR.2, Matrix.one_mulVec]
    abel

theorem rigid_dot {n : Nat} {R : Matrix (Fin n) (Fin n) ℝ} (hR : Rᵀ * R = 1) (v : Fin n → ℝ) : (R *ᵥ v) ⬝ᵥ (R *ᵥ v) = v ⬝ᵥ v := by
  rw [Matrix.dotProduct_mulVec, Matrix.vecMul_mulVec, hR, Matrix.vecMul_one]

/-- **C20** (distances) With an orthogonal rotation distances do not change. -/
theorem transCoord_dist {id : Int} {i : Fin 4} (h : axisOf id = some i) (hR : Rigid (P.rotation i)) {a b a' b' : V3}
    (ha : transCoord P a id = .ok a') (hb : transCoord P b id = .ok b') : dist2 a' b' = dist2 a b := by
  obtain ⟨x, y, _, h1, h2, _, h3, _⟩ := transCoord_motion (P := P) h a b
  obtain rfl := Res.ok.inj (ha.symm.trans h1)
  obtain rfl := Res.ok.inj (hb.symm.trans h2)
  unfold dist2
  rw [h3, rigid_dot hR.1]

/-! ### vectors and matrices -/

theorem block_rigid {R : M3} (hR : Rigid R) (hz : ∀ a : Fin 2, R 2 a.castSucc = 0) : Rigid (block R) := by
  have h1 := hR.1
  have key : (block R)ᵀ * block R = 1 := by
    ext a b
    have := congrFun (congrFun h1 a.castSucc) b.castSucc
    simp only [Matrix.mul_apply, Fin.sum_univ_three, Fin.sum_univ_two, Matrix.transpose_apply, block, Matrix.one_apply,
      Fin.castSucc_inj] at this ⊢
    have ez := hz a
    rw [show (2 : Fin 3) = 2 from rfl, ez, zero_mul, add_zero] at this
    exact this
  exact ⟨key, mul_eq_one_comm.mp key⟩

variable {nVec : Nat}

/-- **C20** (vectors, space) -/
theorem transVector3_back {id : Int} {i : Fin 4} (h : axisOf id = some i) (hR : Rigid (P.rotation i)) (v : Matrix (Fin 3) (Fin nVec) ℝ) :
    (transVector3 P v id).bind (fun r => transVectorBack3 P r id) = .ok v ∧
    (transVectorBack3 P v id).bind (fun r => transVector3 P r id) = .ok v := by
  unfold transVector3 transVectorBack3
  rw [slot_ok h]
  constructor
  · show Res.ok _ = Res.ok v
    rw [← Matrix.mul_assoc, hR.1, Matrix.one_mul]
  · show Res.ok _ = Res.ok v
    rw [← Matrix.mul_assoc, hR.2, Matrix.one_mul]

/-- **C20** (vectors, plane) Additionally the rotation must not mix the third axis into the plane. -/
theorem transVector2_back {id : Int} {i : Fin 4} (h : axisOf id = some i) (hR : Rigid (P.rotation i))
    (hz : ∀ a : Fin 2, P.rotation i 2 a.castSucc = 0) (v : Matrix (Fin 2) (Fin nVec) ℝ) :
    (transVector2 P v id).bind (fun r => transVectorBack2 P r id) = .ok v ∧
    (transVectorBack2 P v id).bind (fun r => transVector2 P r id) = .ok v := by
  have hB := block_rigid hR hz
  unfold transVector2 transVectorBack2
  rw [slot_ok h]
  constructor
  · show Res.ok _ = Res.ok v
    rw [← Matrix.mul_assoc, hB.1, Matrix.one_mul]
  · show Res.ok _ = Res.ok v
    rw [← Matrix.mul_assoc, hB.2, Matrix.one_mul]

/-- **C20** (vectors follow points) The transform of the difference of two points is the difference of their transforms. -/
theorem transVector_of_coord {id : Int} {a b a' b' : V3} (ha : transCoord P a id = .ok a') (hb : transCoord P b id = .ok b')
    {r : Matrix (Fin 3) (Fin 1) ℝ} (hv : transVector3 P (fun k _ => (a - b) k) id = .ok r) : ∀ k, r k 0 = (a' - b') k := by
  cases hx : axisOf id with
  | none =>
    unfold transCoord at ha
    rw [slot_spec, hx] at ha
    exact absurd ha (by intro h; cases h)
  | some i =>
    obtain ⟨x, y, _, h1, h2, _, h3, _⟩ := transCoord_motion (P := P) hx a b
    obtain rfl := Res.ok.inj (ha.symm.trans h1)
    obtain rfl := Res.ok.inj (hb.symm.trans h2)
    unfold transVector3 at hv
    rw [slot_ok hx] at hv
    obtain rfl := Res.ok.inj hv
    intro k
    rw [h3]
    rfl

/-- **C20** (matrices, space) Round trip, and a matrix that takes `v` to `w` becomes one that takes the transformed `v` to the transformed
`w`. -/
theorem transMat3_back {id : Int} {i : Fin 4} (h : axisOf id = some i) (hR : Rigid (P.rotation i)) (m : M3) :
    (transMat3 P m id).bind (fun r => transMatBack3 P r id) = .ok m ∧ (transMatBack3 P m id).bind (fun r => transMat3 P r id) = .ok m ∧
    ∀ v : Matrix (Fin 3) (Fin 1) ℝ, ∃ m' v' w', transMat3 P m id = .ok m' ∧ transVector3 P v id = .ok v' ∧
      transVector3 P (m * v) id = .ok w' ∧ m' * v' = w' := by
  unfold transMat3 transMatBack3 transVector3
  rw [slot_ok h]
  refine ⟨?_, ?_, fun v => ⟨_, _, _, rfl, rfl, rfl, ?_⟩⟩
  · show Res.ok _ = Res.ok m
    congr 1
    rw [Matrix.mul_assoc, Matrix.mul_assoc, hR.1, Matrix.mul_one, ← Matrix.mul_assoc, hR.1, Matrix.one_mul]
  · show Res.ok _ = Res.ok m
    congr 1
    rw [Matrix.mul_assoc, Matrix.mul_assoc, hR.2, Matrix.mul_one, ← Matrix.mul_assoc, hR.2, Matrix.one_mul]
  · rw [Matrix.mul_assoc, ← Matrix.mul_assoc (P.rotation i)ᵀ, hR.1, Matrix.one_mul, Matrix.mul_assoc]

/-- **C20** (matrices, plane) -/
theorem transMat2_back {id : Int} {i : Fin 4} (h : axisOf id = some i) (hR : Rigid (P.rotation i))
    (hz : ∀ a : Fin 2, P.rotation i 2 a.castSucc = 0) (m : Matrix (Fin 2) (Fin 2) ℝ) :
    (transMat2 P m id).bind (fun r => transMatBack2 P r id) = .ok m ∧ (transMatBack2 P m id).bind (fun r => transMat2 P r id) = .ok m ∧
    ∀ v : Matrix (Fin 2) (Fin 1) ℝ, ∃ m' v' w', transMat2 P m id = .ok m' ∧ transVector2 P v id = .ok v' ∧
      transVector2 P (m * v) id = .ok w' ∧ m' * v' = w' := by
  have hB := block_rigid hR hz
  unfold transMat2 transMatBack2 transVector2
  rw [slot_ok h]
  refine ⟨?_, ?_, fun v => ⟨_, _, _, rfl, rfl, rfl, ?_⟩⟩
  · show Res.ok _ = Res.ok m
    congr 1
    rw [Matrix.mul_assoc, Matrix.mul_assoc, hB.1, Matrix.mul_one, ← Matrix.mul_assoc, hB.1, Matrix.one_mul]
  · show Res.ok _ = Res.ok m
    congr 1
    rw [Matrix.mul_assoc, Matrix.mul_assoc, hB.2, Matrix.mul_one, ← Matrix.mul_assoc, hB.2, Matrix.one_mul]
  · rw [Matrix.mul_assoc, ← Matrix.mul_assoc (block (P.rotation i))ᵀ, hB.1, Matrix.one_mul, Matrix.mul_assoc]

/-! ### sets of bits -/

/-- optional steps in sequence and the inverse steps in the opposite order cancel -/
theorem steps_cancel {α : Type} (b1 b2 b3 : Bool) (f1 f2 f3 g1 g2 g3 : α → Res α) (h1 : ∀ c, (f1 c).bind g1 = .ok c)
    (h2 : ∀ c, (f2 c).bind g2 = .ok c) (h3 : ∀ c, (f3 c).bind g3 = .ok c) (c : α) :
    ((optStep b3 f3 c).bind fun r => (optStep b2 f2 r).bind fun r => optStep b1 f1 r).bind
      (fun r => (optStep b1 g1 r).bind fun r => (optStep b2 g2 r).bind fun r => optStep b3 g3 r) = .ok c := by
  have e1 : ∀ r, (optStep b1 f1 r).bind (fun r => optStep b1 g1 r) = .ok r := fun r => by
    cases b1
    · rfl
    · exact h1 r
  have e2 : ∀ r, (optStep b2 f2 r).bind (fun r => optStep b2 g2 r) = .ok r := fun r => by
    cases b2
    · rfl
    · exact h2 r
  have e3 : ∀ r, (optStep b3 f3 r).bind (fun r => optStep b3 g3 r) = .ok r := fun r => by
    cases b3
    · rfl
    · exact h3 r
  have assoc : ∀ {β γ δ : Type} (x : Res β) (f : β → Res γ) (g : γ → Res δ), (x.bind f).bind g = x.bind fun y => (f y).bind g := by
    intro β γ δ x f g
    cases x <;> rfl
  have okb : ∀ {β γ : Type} (y : β) (f : β → Res γ), (Res.ok y).bind f = f y := fun _ _ => rfl
  simp only [assoc]
  have k1 : ∀ r : α, ((optStep b1 f1 r).bind fun r => (optStep b1 g1 r).bind fun r =>
      (optStep b2 g2 r).bind fun r => optStep b3 g3 r) =
      ((optStep b2 g2 r).bind fun r => optStep b3 g3 r) := fun r => by
    rw [← assoc, e1, okb]
  simp only [k1]
  have k2 : ∀ r : α, ((optStep b2 f2 r).bind fun r => (optStep b2 g2 r).bind fun r =>
      optStep b3 g3 r) = (optStep b3 g3 r) := fun r => by
    rw [← assoc, e2, okb]
  simp only [k2]
  exact e3 c

/-- **C20** (bits, points) Transforming a point by any set of periodic bits and then back by the same bits is the identity. -/
theorem coordByBits_back (hR : ∀ i : Fin 4, i ≠ 0 → Rigid (P.rotation i)) (c : V3) (bits : Bits.Mark) :
    (coordByBits P c bits).bind (fun r => coordBackByBits P r bits) = .ok c := by
  unfold coordByBits coordBackByBits
  by_cases hb : bits = 0
  · simp only [if_pos hb]; rfl
  · simp only [if_neg hb]
    exact steps_cancel _ _ _ (fun r => transCoord P r (-1)) (fun r => transCoord P r (-2)) (fun r => transCoord P r (-3))
      (fun r => transCoordBack P r (-1)) (fun r => transCoordBack P r (-2)) (fun r => transCoordBack P r (-3))
      (fun c => (transCoord_back rfl (hR 1 (by decide)) c).1) (fun c => (transCoord_back rfl (hR 2 (by decide)) c).1)
      (fun c => (transCoord_back rfl (hR 3 (by decide)) c).1) c

/-- **C20** (bits, vectors in space) -/
theorem vectorByBits3_back (hR : ∀ i : Fin 4, i ≠ 0 → Rigid (P.rotation i)) (v : Matrix (Fin 3) (Fin nVec) ℝ) (bits : Bits.Mark) :
    (vectorByBits3 P v bits).bind (fun r => vectorBackByBits3 P r bits) = .ok v := by
  unfold vectorByBits3 vectorBackByBits3
  by_cases hb : bits = 0
  · simp only [if_pos hb]; rfl
  · simp only [if_neg hb]
    exact steps_cancel _ _ _ (fun r => transVector3 P r (-1)) (fun r => transVector3 P r (-2)) (fun r => transVector3 P r (-3))
      (fun r => transVectorBack3 P r (-1)) (fun r => transVectorBack3 P r (-2)) (fun r => transVectorBack3 P r (-3))
      (fun c => (transVector3_back rfl (hR 1 (by decide)) c).1) (fun c => (transVector3_back rfl (hR 2 (by decide)) c).1)
      (fun c => (transVector3_back rfl (hR 3 (by decide)) c).1) v

/-- **C20** (bits, vectors in the plane) -/
theorem vectorByBits2_back (hR : ∀ i : Fin 4, i ≠ 0 → Rigid (P.rotation i))
    (hz : ∀ i : Fin 4, i ≠ 0 → ∀ a : Fin 2, P.rotation i 2 a.castSucc = 0) (v : Matrix (Fin 2) (Fin nVec) ℝ) (bits : Bits.Mark) :
    (vectorByBits2 P v bits).bind (fun r => vectorBackByBits2 P r bits) = .ok v := by
  unfold vectorByBits2 vectorBackByBits2
  by_cases hb : bits = 0
  · simp only [if_pos hb]; rfl
  · simp only [if_neg hb]
    exact steps_cancel _ _ _ (fun r => transVector2 P r (-1)) (fun r => transVector2 P r (-2)) (fun r => transVector2 P r (-3))
      (fun r => transVectorBack2 P r (-1)) (fun r => transVectorBack2 P r (-2)) (fun r => transVectorBack2 P r (-3))
      (fun c => (transVector2_back rfl (hR 1 (by decide)) (hz 1 (by decide)) c).1)
      (fun c => (transVector2_back rfl (hR 2 (by decide)) (hz 2 (by decide)) c).1)
      (fun c => (transVector2_back rfl (hR 3 (by decide)) (hz 3 (by decide)) c).1) v

/-- the periodicity of a quarter turn about the third axis through a centre, next to two plain shifts -/
def quarter : Periodicity where
  rotation := ![1, !![0, -1, 0; 1, 0, 0; 0, 0, 1], 1, 1]
  rotationCenter := ![0, ![1, 2, 0], 0, 0]
  translation := ![0, ![5, 0, 0], ![0, 1, 0], ![0, 0, 1]]

/-- **C20** (the bits do move points) For the default periodicity of unit shifts, every bit adds its shift. -/
theorem coordByBits_default (c : V3) (bits : Bits.Mark) : coordByBits Periodicity.default c bits =
    .ok (c + (if Bits.getP1 bits then ![1, 0, 0] else 0) + (if Bits.getP2 bits then ![0, 1, 0] else 0) +
      (if Bits.getP3 bits then ![0, 0, 1] else 0)) := by
  have ht : ∀ (id : Int) (i : Fin 4), axisOf id = some i → ∀ c, transCoord Periodicity.default c id =
      .ok (c + Periodicity.default.translation i) := fun id i h c => by
    unfold transCoord
    rw [slot_ok h]
    show Res.ok _ = Res.ok _
    congr 1
    simp only [Periodicity.default, Matrix.one_mulVec, sub_zero, add_zero]
  unfold coordByBits
  by_cases hb : bits = 0
  · simp only [if_pos hb]
    subst hb
    have h1 : Bits.getP1 0 = false := rfl
    have h2 : Bits.getP2 0 = false := rfl
    have h3 : Bits.getP3 0 = false := rfl
    simp only [h1, h2, h3, Bool.false_eq_true, if_false, add_zero]
    rfl
  · simp only [if_neg hb, optStep, ht (-1) 1 rfl, ht (-2) 2 rfl, ht (-3) 3 rfl]
    cases Bits.getP1 bits <;> cases Bits.getP2 bits <;> cases Bits.getP3 bits <;>
    · refine congrArg Res.ok ?_
      simp only [Bool.false_eq_true, if_false, if_true, add_zero, Periodicity.default] <;>
      first
        | rfl
        | (funext k; fin_cases k <;> simp; done)
        | (funext k; fin_cases k <;> simp <;> ring; done)
        | abel

/-- non-vacuity: a quarter turn is orthogonal, keeps the plane, and moves a point. -/
example : Rigid (quarter.rotation 1) ∧ (∀ a : Fin 2, quarter.rotation 1 2 a.castSucc = 0) ∧
    transCoord quarter ![2, 2, 0] (-4) = .ok ![6, 3, 0] := by
  have hr : quarter.rotation 1 = !![0, -1, 0; 1, 0, 0; 0, 0, 1] := rfl
  refine ⟨⟨?_, ?_⟩, ?_, ?_⟩
  · rw [hr]; ext a b; fin_cases a <;> fin_cases b <;> simp [Matrix.mul_apply, Fin.sum_univ_three]
  · rw [hr]; ext a b; fin_cases a <;> fin_cases b <;> simp [Matrix.mul_apply, Fin.sum_univ_three]
  · intro a; rw [hr]; fin_cases a <;> simp
  · unfold transCoord
    rw [slot_ok (i := 1) rfl]
    show Res.ok _ = Res.ok _
    congr 1
    rw [hr]
    have h1 : quarter.rotationCenter 1 = ![1, 2, 0] := rfl
    have h2 : quarter.translation 1 = ![5, 0, 0] := rfl
    rw [h1, h2]
    ext k
    fin_cases k <;> simp [Matrix.mulVec, dotProduct, Fin.sum_univ_three, Matrix.of_apply, Matrix.vecHead, Matrix.vecTail] <;> norm_num

end DNDSR.Per
