import Verif.Model.Order
import Verif.Model.Names

/-!
# Text functions of `std` used by the language crates

Rust sources: `str` methods of the standard library, as used in
`/repo/firm_lang/src/parser/dsl/parsed_value.rs` and `/repo/firm_mcp/src/tools/`.
-/

namespace Firm

/-- `s.trim_matches(c)`. -/
def trimMatches (c : Char) (s : Str) : Str :=
  ((s.dropWhile (· == c)).reverse.dropWhile (· == c)).reverse

/-- `s.trim_start_matches("\"\"\"")`: the prefix is removed as often as it occurs. -/
def trimTriple : Str → Str
  | '"' :: '"' :: '"' :: s => trimTriple s
  | s => s

/-- `s.trim_end_matches("\"\"\"")`. -/
def trimTripleEnd (s : Str) : Str := (trimTriple s.reverse).reverse

/-- Worker of `strReplace`; the first argument counts characters still to be skipped. -/
def replaceGo (pat rep : Str) : Nat → Str → Str
  | _, [] => []
  | k + 1, _ :: s => replaceGo pat rep k s
  | 0, c :: s =>
    if startsWith (c :: s) pat then rep ++ replaceGo pat rep (pat.length - 1) s
    else c :: replaceGo pat rep 0 s

/-- `s.replace(pat, rep)` for a non-empty pattern: occurrences are found from the left and do not
overlap. -/
def strReplace (pat rep s : Str) : Str := replaceGo pat rep 0 s

/-- Worker of `splitStr`. -/
def splitStrGo (sep : Str) : Nat → Str → List Str
  | _, [] => [[]]
  | k + 1, _ :: s => splitStrGo sep k s
  | 0, c :: s =>
    if startsWith (c :: s) sep then [] :: splitStrGo sep (sep.length - 1) s
    else
      match splitStrGo sep 0 s with
      | [] => [[c]]
      | p :: ps => (c :: p) :: ps

/-- `s.split(sep)` for a non-empty separator text. -/
def splitStr (sep s : Str) : List Str := splitStrGo sep 0 s

/-- `parts.join(sep)`. -/
def joinWith (sep : Str) : List Str → Str
  | [] => []
  | [p] => p
  | p :: q :: ps => p ++ sep ++ joinWith sep (q :: ps)

/-- A line without the carriage return of its line ending. -/
def stripCr (s : Str) : Str := if s.getLast? = some '\r' then s.dropLast else s

/-- Worker of `strLines` on the pieces between line feeds. -/
def linesOf : List Str → List Str
  | [] => []
  | [p] => if p = [] then [] else [p]
  | p :: q :: ps => stripCr p :: linesOf (q :: ps)

/-- `s.lines()`: pieces ended by `\n` or `\r\n`; no empty piece after a final line ending. -/
def strLines (s : Str) : List Str := linesOf (splitChar '\n' s)

/-- `s.len()`: the length in UTF-8 bytes. -/
def byteLen : Str → Nat
  | [] => 0
  | c :: s => c.utf8Size + byteLen s

/-- `&s[n..]`; `none` is the panic when `n` is not on a character boundary (or past the end). -/
def dropBytes : Nat → Str → Option Str
  | 0, s => some s
  | _ + 1, [] => none
  | n + 1, c :: s => if c.utf8Size ≤ n + 1 then dropBytes (n + 1 - c.utf8Size) s else none

/-! ## Numbers in decimal notation -/

/-- The character of a decimal digit. -/
def digitChar (d : Nat) : Char := Char.ofNat (48 + d)

/-- Value of a digit character. -/
def digitVal (c : Char) : Nat := c.toNat - 48

/-- Worker of `showNat` (the first argument is fuel, `n + 1` is enough). -/
def showNatGo : Nat → Nat → Str
  | 0, _ => []
  | k + 1, n => if n < 10 then [digitChar n] else showNatGo k (n / 10) ++ [digitChar (n % 10)]

/-- `n.to_string()` for an unsigned integer. -/
def showNat (n : Nat) : Str := showNatGo (n + 1) n

/-- `n.to_string()` for a signed integer. -/
def showInt (n : Int) : Str := if n < 0 then '-' :: showNat n.natAbs else showNat n.natAbs

/-- Value of a text of digits. -/
def digitsVal (s : Str) : Nat := s.foldl (fun a c => a * 10 + digitVal c) 0

/-- A non-empty text of digits. -/
def parseNat (s : Str) : Option Nat :=
  if !s.isEmpty && s.all isDigit then some (digitsVal s) else none

/-- Optional sign, then digits: the syntax accepted by `str::parse` for signed integers. -/
def parseSigned : Str → Option Int
  | '-' :: s => (parseNat s).map fun n : Nat => -(n : Int)
  | '+' :: s => (parseNat s).map fun n : Nat => (n : Int)
  | s => (parseNat s).map fun n : Nat => (n : Int)

/-- `str::parse::<i64>()`. -/
def parseI64 (s : Str) : Option Int :=
  (parseSigned s).filter fun n => decide (-(2 ^ 63) ≤ n) && decide (n < 2 ^ 63)

/-- `str::parse::<i32>()`. -/
def parseI32 (s : Str) : Option Int :=
  (parseSigned s).filter fun n => decide (-(2 ^ 31) ≤ n) && decide (n < 2 ^ 31)

end Firm
