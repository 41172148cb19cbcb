import Verif.Props.Text

/-!
The texts that stand for layer names and labels.
-/

namespace Verif.Spec

/-- The value of a hexadecimal digit. -/
def hexDigit (c : Nat) : Nat := if c ≤ 57 then c - 48 else if c ≤ 70 then c - 55 else c - 87

/-- The hexadecimal number that a text of digits stands for, the digits before it having the
value `acc`. -/
def hexValue : Nat → List Nat → Nat
  | acc, [] => acc
  | acc, c :: t => hexValue (16 * acc + hexDigit c) t

/-- A part of a name: 8 hexadecimal digits, or a plus sign and 7. -/
def IsPart (p : List Nat) (v : Nat) : Prop :=
  p.length = 8 ∧ ∃ ds, (p = ds ∨ p = 43 :: ds) ∧ (∀ c ∈ ds, Hex c) ∧ v = hexValue 0 ds

/-- The text is read as a name with these five parts. -/
def IsName (t : List Nat) (a b c d e : Nat) : Prop :=
  ∃ pa pb pc pd pe, t = pa ++ (pb ++ (pc ++ (pd ++ pe))) ∧
    IsPart pa a ∧ IsPart pb b ∧ IsPart pc c ∧ IsPart pd d ∧ IsPart pe e

/-- A decimal number, perhaps after a plus sign. -/
def IsNumber (t : List Nat) (v : Nat) : Prop :=
  ∃ ds, (t = ds ∨ t = 43 :: ds) ∧ ds ≠ [] ∧ (∀ c ∈ ds, Dec c) ∧ v = decValue 0 ds

/-- The end of a line. -/
def Eol (e : List Nat) : Prop := e = [10] ∨ e = [13, 10]

/-- The text can be cut after its first `n` bytes: they do not end inside a character. -/
def Cuts (t : List Nat) (n : Nat) : Prop := ∃ p r, t = p ++ r ∧ Text.len p = n

end Verif.Spec
