import Verif.Model.Text

/-!
Strings and their code points.
-/

namespace Verif

/-- The code points of a string. -/
def textOf (s : String) : Text := s.toList.map Char.toNat

/-- The string with some code points. -/
def stringOf (t : Text) : String := String.ofList (t.map Char.ofNat)

end Verif
