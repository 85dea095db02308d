import Verif.Model.Saved

/-!
# Floats in JSON texts

`/repo/firm_cli/src/files.rs:82` reads the saved graph with `serde_json::from_str`. None of the manifests of the
workspace (`/repo/firm_cli/Cargo.toml:24`, `/repo/firm_core/Cargo.toml:11`, `/repo/firm_mcp/Cargo.toml:17`) asks for
the feature `float_roundtrip`, so that a number is read by one multiplication or division of floats. The library is
not part of the repository; this file follows its version 1.0.145 (`/repo/Cargo.lock:1383`, `de.rs`:
`parse_integer`, `parse_long_integer`, `parse_decimal`, `parse_exponent`, `f64_from_parts`).
-/

namespace Firm

/-- The digits before the point: as many as fit into `u64`, and the number of the others. -/
def sigInt : Nat → Str → Nat × Nat
  | sig, [] => (sig, 0)
  | sig, c :: cs =>
    if sig * 10 + digitVal c < 2 ^ 64 then sigInt (sig * 10 + digitVal c) cs else (sig, cs.length + 1)

/-- The digits after the point: as many as fit into `u64`, and their number. -/
def sigFrac : Nat → Str → Nat × Nat
  | sig, [] => (sig, 0)
  | sig, c :: cs =>
    if sig * 10 + digitVal c < 2 ^ 64 then
      ((sigFrac (sig * 10 + digitVal c) cs).1, (sigFrac (sig * 10 + digitVal c) cs).2 + 1)
    else (sig, 0)

/-- An entry of the table of powers of ten: the float next to it. -/
def powTen (k : Nat) : Rat :=
  match F64.rnd ((10 ^ k : Nat) : Rat) with
  | .fin q => q
  | _ => 0

/-- A float times a positive number. -/
def F64.mulPos (a : F64) (d : Rat) : F64 :=
  match a with
  | .fin q => if q = 0 then .fin 0 else F64.rnd (q * d)
  | f => f

/-- The loop of `f64_from_parts`; three rounds suffice, as the float is then zero. -/
def scaleTen : Nat → F64 → Int → Option F64
  | 0, f, _ => some f
  | n + 1, f, e =>
    if e.natAbs ≤ 308 then
      if 0 ≤ e then
        match f.mulPos (powTen e.natAbs) with
        | .inf _ => none
        | g => some g
      else some (f.divPos (powTen e.natAbs))
    else if f = .fin 0 then some f
    else if 0 ≤ e then none
    else scaleTen n (f.divPos (powTen 308)) (e + 308)

/-- `f64_from_parts`. -/
def fromParts (neg : Bool) (sig : Nat) (e : Int) : Option F64 :=
  (scaleTen 4 (F64.ofInt sig) e).map fun f => if neg then f.neg else f

/-- The exponent after `e`, which must have a digit. -/
def readExp (s : Str) : Option Int :=
  match s with
  | '+' :: r => (parseNat r).map fun n => (n : Int)
  | '-' :: r => (parseNat r).map fun n => -(n : Int)
  | r => (parseNat r).map fun n => (n : Int)

/-- A number without its sign. -/
def readUnsigned (neg : Bool) (s : Str) : Option F64 :=
  if isJsonNat (s.takeWhile isDigit) then
    match s.dropWhile isDigit with
    | [] => fromParts neg (sigInt 0 (s.takeWhile isDigit)).1 (sigInt 0 (s.takeWhile isDigit)).2
    | '.' :: r =>
      if r.takeWhile isDigit = [] then none
      else
        match r.dropWhile isDigit with
        | [] =>
          fromParts neg (sigFrac (sigInt 0 (s.takeWhile isDigit)).1 (r.takeWhile isDigit)).1
            ((sigInt 0 (s.takeWhile isDigit)).2 - (sigFrac (sigInt 0 (s.takeWhile isDigit)).1 (r.takeWhile isDigit)).2)
        | c :: x =>
          if c = 'e' ∨ c = 'E' then
            match readExp x with
            | none => none
            | some k =>
              fromParts neg (sigFrac (sigInt 0 (s.takeWhile isDigit)).1 (r.takeWhile isDigit)).1
                ((sigInt 0 (s.takeWhile isDigit)).2 -
                  (sigFrac (sigInt 0 (s.takeWhile isDigit)).1 (r.takeWhile isDigit)).2 + k)
          else none
    | c :: x =>
      if c = 'e' ∨ c = 'E' then
        match readExp x with
        | none => none
        | some k => fromParts neg (sigInt 0 (s.takeWhile isDigit)).1 ((sigInt 0 (s.takeWhile isDigit)).2 + k)
      else none
  else none

/-- A number that is not an integer in the range of `u64` or `i64`. -/
def serdeFloat : Str → Option F64
  | '-' :: r => readUnsigned true r
  | s => readUnsigned false s

end Firm
