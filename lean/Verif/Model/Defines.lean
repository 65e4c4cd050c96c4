import Verif.Model.Basic

/-!
# Integer, list and string helpers of `src/DNDS/Defines.hpp`
-/

namespace DNDSR.Defines

/-! ## Machine integers

A signed C++ integer type of width `w` is a mathematical integer in `[-2^(w-1), 2^(w-1))`;
a built-in operation whose exact result leaves that range is undefined behaviour. -/

/-- `std::numeric_limits<T>::max()` for a signed type of width `w`. -/
def intMax (w : Nat) : Int := 2 ^ (w - 1) - 1
/-- `std::numeric_limits<T>::min()` for a signed type of width `w`. -/
def intMin (w : Nat) : Int := -(2 ^ (w - 1))

/-- the value is representable in the signed type of width `w` -/
def Fits (w : Nat) (a : Int) : Prop := intMin w ≤ a ∧ a ≤ intMax w

instance (w : Nat) (a : Int) : Decidable (Fits w a) := by unfold Fits; infer_instance

/-- built-in signed `a + b` (UB on overflow) -/
def cAdd (w : Nat) (a b : Int) : Res Int := if Fits w (a + b) then .ok (a + b) else .ub
/-- built-in signed `a - b` (UB on overflow) -/
def cSub (w : Nat) (a b : Int) : Res Int := if Fits w (a - b) then .ok (a - b) else .ub

/-- Models `signedIntWillAddOverflow`, `src/DNDS/Defines.hpp:236-245`.
`&&` short-circuits, so each subtraction is evaluated only under its sign test. -/
def signedIntWillAddOverflow (w : Nat) (value increment : Int) : Res Bool := do
  let c1 ← if increment > 0 then do
              let t ← cSub w (intMax w) increment
              pure (decide (value > t))
            else pure false
  if c1 then pure true else
  let c2 ← if increment < 0 then do
              let t ← cSub w (intMin w) increment
              pure (decide (value < t))
            else pure false
  if c2 then pure true else pure false

/-- Models `signedIntSafeAdd`, `src/DNDS/Defines.hpp:248-258`. -/
def signedIntSafeAdd (w : Nat) (value increment : Int) : Res Int := do
  let o ← signedIntWillAddOverflow w value increment
  if o then .abort else cAdd w value increment

/-- Models `size_t_to_signed<T>`, `src/DNDS/Defines.hpp:260-272`; `v` is the `size_t` value. -/
def size_t_to_signed (w : Nat) (v : Nat) : Res Int :=
  if (v : Int) ≤ intMax w then .ok (v : Int) else .abort

/-- Models `checkedIndexTo32`, `src/DNDS/Defines.hpp:414-419`. -/
def checkedIndexTo32 (v : Int) : Res Int :=
  if ¬ (v > intMax 32 ∨ v < intMin 32) then .ok v else .abort

/-- Models the loop of `AccumulateRowSize`, `src/DNDS/Defines.hpp:283-287`: `prev` is
`rowstarts[i-1]`, the argument the remaining `rowsizes`; returns the remaining `rowstarts`. -/
def accumulateGo (w : Nat) (prev : Int) : List Int → Res (List Int)
  | [] => .ok []
  | r :: rs => do
    let s ← signedIntSafeAdd w prev r
    let rest ← accumulateGo w s rs
    pure (s :: rest)

/-- Models `AccumulateRowSize`, `src/DNDS/Defines.hpp:275-288` (`w` = width of the row-start
type, `rowstarts.resize(n+1); rowstarts[0] = 0`). -/
def accumulateRowSize (w : Nat) (rowsizes : List Int) : Res (List Int) := do
  let rest ← accumulateGo w 0 rowsizes
  pure (0 :: rest)

/-- Models `checkUniformVector`, `src/DNDS/Defines.hpp:290-300`.  Returns the boolean result and
the new content of the out-parameter `value` (unchanged for an empty vector). -/
def checkUniformVector {α : Type} [DecidableEq α] (dat : List α) (value : α) : Bool × α :=
  match dat with
  | [] => (false, value)
  | d :: ds => (ds.all (fun x => decide (x = d)), d)

/-- Models `divCeil`, `src/DNDS/Defines.hpp:310-314`, as C++ parses it:
`(l / r + (l % r)) ? 1 : 0`. -/
def divCeil (l r : Int) : Res Int :=
  if r = 0 then .ub else .ok (if Int.tdiv l r + Int.tmod l r ≠ 0 then 1 else 0)

/-- Models `mod`, `src/DNDS/Defines.hpp:365-373` (`%` truncates). -/
def cmod (a b : Int) : Res Int :=
  if b = 0 then .ub else
  let val := Int.tmod a b
  .ok (if val < 0 then val + b else val)

/-- Models `divide_ceil`, `src/DNDS/Defines.hpp:375-380`. -/
def divide_ceil (a b : Int) : Res Int :=
  if b = 0 then .ub else .ok (Int.tdiv a b + (if Int.tmod a b ≠ 0 then 1 else 0))

/-- Models `iterateIdentical`, `src/DNDS/Defines.hpp:391-410`, with the visitor as a function
`F value pos1 pos2 state` returning the new state and whether to stop.  `p1`,`p2` are
`it1Pos`,`it2Pos`.  Returns the final state and the boolean result. -/
def iterateIdentical {σ : Type} (F : Int → Nat → Nat → σ → σ × Bool) :
    List Int → List Int → Nat → Nat → σ → σ × Bool
  | [], _, _, _, s => (s, false)
  | _ :: _, [], _, _, s => (s, false)
  | a :: as, b :: bs, p1, p2, s =>
    if a < b then iterateIdentical F as (b :: bs) (p1 + 1) p2 s
    else if a > b then iterateIdentical F (a :: as) bs p1 (p2 + 1) s
    else
      let r := F a p1 p2 s
      if r.2 then (r.1, true)
      else iterateIdentical F as bs (p1 + 1) (p2 + 1) r.1
termination_by l1 l2 => l1.length + l2.length

/-- Models the `while` loop of `splitSString`, `src/DNDS/Defines.hpp:523-539`.  `cur` is
`str.substr(bot, top-bot)` reversed, the argument is `str` from `top` on. -/
def splitGo (delim : Char) (cur : List Char) : List Char → List (List Char)
  | [] => [cur.reverse]
  | c :: cs => if c ≠ delim then splitGo delim (c :: cur) cs
               else cur.reverse :: splitGo delim [] cs

/-- Models `splitSString`, `src/DNDS/Defines.hpp:523-539`. -/
def splitSString (str : List Char) (delim : Char) : List (List Char) := splitGo delim [] str

/-- Models `splitSStringClean`, `src/DNDS/Defines.hpp:541-549`. -/
def splitSStringClean (str : List Char) (delim : Char) : List (List Char) :=
  (splitSString str delim).filter (fun v => !v.isEmpty)

/-- Models `sstringHasSuffix`, `src/DNDS/Defines.hpp:551-556`
(`compare(pos, len, suffix) == 0` compares the substring of length `len` at `pos`). -/
def sstringHasSuffix (str suffix : List Char) : Bool :=
  if str.length < suffix.length then false
  else decide ((str.drop (str.length - suffix.length)).take suffix.length = suffix)

/-- Models `std::hash<std::vector<T>>`, `src/DNDS/Defines.hpp:558-570`: xor of element hashes. -/
def hashVec {α : Type} (h : α → BitVec 64) (v : List α) : BitVec 64 :=
  v.foldl (fun r i => r ^^^ h i) 0

end DNDSR.Defines
