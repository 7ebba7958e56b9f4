import Verif.Model.Cli
import Mathlib.Data.Nat.Digits.Defs
/-!
# Specification for the command line: what the arguments a user types mean

Independent of how the commands read them: a numeral is a non-empty string of decimal digits, a list of ids is numerals with
commas between them, a direction is one of four words in any case.
-/
namespace Verif.Spec
open Verif Verif.Dex Verif.Amm Verif.Cli

/-- The text `t` writes the number `n` in decimal (leading zeros are allowed), and `n` fits in 64 bits. -/
def Numeral (t : Text) (n : Nat) : Prop :=
  t ≠ [] ∧ (∀ c ∈ t, c.isDigit = true) ∧ Nat.ofDigits 10 (t.reverse.map fun c => c.toNat - '0'.toNat) = n ∧ n < 2 ^ 64

/-- The text `t` is numerals for the numbers `ns`, with commas between them. -/
def Numerals (t : Text) (ns : List Nat) : Prop :=
  ∃ ts : List Text, ts ≠ [] ∧ t = [','].intercalate ts ∧ List.Forall₂ Numeral ts ns

/-- The text `t` is a word for the direction `d`: buy, b, sell or s, in upper or lower case or a mixture. -/
def Direction (t : Text) (d : Dir) : Prop :=
  match d with
  | .buy => t.map Char.toLower = ['b', 'u', 'y'] ∨ t.map Char.toLower = ['b']
  | .sell => t.map Char.toLower = ['s', 'e', 'l', 'l'] ∨ t.map Char.toLower = ['s']

end Verif.Spec
