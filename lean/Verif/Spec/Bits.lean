import Verif.Model.Bits

namespace DNDSR.Bits

/-- the matrix has as many coefficients as its dimensions say -/
def WF (m : Mat) : Prop := m.data.length = m.rows * m.cols

/-- total number of coefficients -/
def total (ms : List Mat) : Nat := (ms.map (fun m => m.rows * m.cols)).sum

/-- bits `lo … lo + w - 1` of a word, as a number -/
def field (d : Word) (lo w : Nat) : Nat := d.toNat / 2 ^ lo % 2 ^ w

end DNDSR.Bits
