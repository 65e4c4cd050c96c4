import Verif.Spec.ODE
import Verif.Model.ODERk

/-!
# Runge-Kutta order conditions
-/

namespace DNDSR.ODE

open Finset

variable {K : Type} [Field K]

namespace Tableau

/-- number of stages -/
def n (T : Tableau K) : Nat := T.A.length
/-- entries; `0` outside -/
def ea (T : Tableau K) (i j : Nat) : K := (T.A.getD i []).getD j 0
def eb (T : Tableau K) (i : Nat) : K := T.b.getD i 0
def ec (T : Tableau K) (i : Nat) : K := T.c.getD i 0

/-- the sizes fit -/
def Sized (T : Tableau K) : Prop :=
  T.b.length = T.n ∧ T.c.length = T.n ∧ ∀ r ∈ T.A, r.length = T.n

/-- only entries on and below the diagonal -/
def Lower (T : Tableau K) : Prop := ∀ i j, i < j → j < T.n → T.ea i j = 0

/-! The left hand sides of the eight order conditions up to order four (Hairer, Nørsett, Wanner, II.2), valid when the abscissae
are the row sums. -/

def rowSum (T : Tableau K) (i : Nat) : K := ∑ j ∈ range T.n, T.ea i j
def s1 (T : Tableau K) : K := ∑ i ∈ range T.n, T.eb i
def s2 (T : Tableau K) : K := ∑ i ∈ range T.n, T.eb i * T.ec i
def s3a (T : Tableau K) : K := ∑ i ∈ range T.n, T.eb i * T.ec i ^ 2
def s3b (T : Tableau K) : K := ∑ i ∈ range T.n, ∑ j ∈ range T.n, T.eb i * T.ea i j * T.ec j
def s4a (T : Tableau K) : K := ∑ i ∈ range T.n, T.eb i * T.ec i ^ 3
def s4b (T : Tableau K) : K := ∑ i ∈ range T.n, ∑ j ∈ range T.n, T.eb i * T.ec i * T.ea i j * T.ec j
def s4c (T : Tableau K) : K := ∑ i ∈ range T.n, ∑ j ∈ range T.n, T.eb i * T.ea i j * T.ec j ^ 2
def s4d (T : Tableau K) : K := ∑ i ∈ range T.n, ∑ j ∈ range T.n, ∑ m ∈ range T.n, T.eb i * T.ea i j * T.ea j m * T.ec m

/-- order three -/
def Order3 (T : Tableau K) : Prop :=
  (∀ i < T.n, T.rowSum i = T.ec i) ∧ T.s1 = 1 ∧ T.s2 = 1 / 2 ∧ T.s3a = 1 / 3 ∧ T.s3b = 1 / 6

/-- order four -/
def Order4 (T : Tableau K) : Prop :=
  T.Order3 ∧ T.s4a = 1 / 4 ∧ T.s4b = 1 / 8 ∧ T.s4c = 1 / 12 ∧ T.s4d = 1 / 24

end Tableau

/-- the tableau of the third order strong stability preserving scheme (Shu, Osher) -/
def ssprk3Tableau (K : Type) [Field K] : Tableau K :=
  { A := [[0, 0, 0], [1, 0, 0], [1 / 4, 1 / 4, 0]], b := [1 / 6, 1 / 6, 2 / 3], c := [0, 1, 1 / 2], scheme := 0 }

end DNDSR.ODE
