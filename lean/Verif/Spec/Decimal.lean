import Mathlib.Data.Rat.Defs
import Mathlib.Algebra.Order.Field.Rat

/-!
# Specification: reading decimal numbers

Independent of the model.  `readDec` is the reader for the real-number syntax of RS274/NGC: an
optional sign, digits, and optionally a point followed by digits, with at least one digit in all.
No exponent notation.
-/

namespace CQ

/-- Text is a list of characters. -/
abbrev Text := List Char

/-- A decimal digit character. -/
def isDig (c : Char) : Bool := '0' ≤ c && c ≤ '9'

/-- Value of a decimal digit character. -/
def digVal (c : Char) : ℕ := c.toNat - 48

/-- Value of a string of digits, most significant first. -/
def readNat (t : Text) : ℕ := t.foldl (fun a c => 10 * a + digVal c) 0

/-- Unsigned decimal: `ddd`, `ddd.`, `ddd.ddd` or `.ddd`. -/
def readUnsigned (t : Text) : Option ℚ :=
  let ip := t.takeWhile isDig
  match t.dropWhile isDig with
  | [] => if ip = [] then none else some (readNat ip : ℚ)
  | c :: fp =>
      if c = '.' ∧ fp.all isDig = true ∧ (ip ≠ [] ∨ fp ≠ []) then
        some ((readNat ip : ℚ) + (readNat fp : ℚ) / 10 ^ fp.length)
      else none

/-- Signed decimal. -/
def readDec : Text → Option ℚ
  | [] => none
  | c :: t =>
      if c = '-' then (readUnsigned t).map (fun q => -q)
      else if c = '+' then readUnsigned t
      else readUnsigned (c :: t)

end CQ
