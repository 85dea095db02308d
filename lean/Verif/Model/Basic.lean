/-!
# Basic types of the model

Rust sources: `/repo/firm_core/src/{id,field,entity}.rs`.
-/

namespace Firm

/-- `String` / `&str`. Simplification: a Rust string is a sequence of Unicode scalar
values, here the list of these scalars (`Char` is exactly the scalar values). -/
abbrev Str := List Char

/-- `EntityId(pub String)` — firm_core/src/id.rs:43. The newtype wrapper is dropped. -/
abbrev EntityId := Str
/-- `FieldId(pub String)` — firm_core/src/id.rs:44. -/
abbrev FieldId := Str
/-- `EntityType(pub String)` — firm_core/src/id.rs:45. -/
abbrev EntityType := Str

/-- `str::cmp`: Rust compares the UTF-8 bytes lexicographically, which is the lexicographic
order of the scalar values. -/
abbrev strCmp (a b : Str) : Ordering := List.compareLex (fun x y : Char => compare x y) a b

/-- Comparison of exact rationals. -/
def ratCmp (a b : Rat) : Ordering :=
  if a < b then .lt else if a = b then .eq else .gt

/-! ## `f64` -/

/-- `f64`: NaN (payloads are not observable here), the infinities, negative zero, and a finite
value given by its exact rational value. Simplification: the type also contains rationals that
are not representable in binary64; all theorems hold for this larger set unless they say
otherwise (`F64.Rep`). -/
inductive F64 where
  | nan
  | inf (neg : Bool)
  | negZero
  | fin (q : Rat)
  deriving DecidableEq, Repr, Inhabited

namespace F64

/-- Position of a non-NaN value on the extended line, `none` for NaN. -/
def key : F64 → Option (Int × Rat)
  | nan => none
  | inf true => some (-1, 0)
  | inf false => some (1, 0)
  | negZero => some (0, 0)
  | fin q => some (0, q)

/-- `f64::partial_cmp` (IEEE-754 comparison, `-0.0 == 0.0`, NaN unordered). -/
def partialCmp (a b : F64) : Option Ordering :=
  match a.key, b.key with
  | some (i, p), some (j, q) => some ((compare i j).then (ratCmp p q))
  | _, _ => none

/-- `f64::is_nan`. -/
def isNan : F64 → Bool
  | nan => true
  | _ => false

/-- `a < b` on `f64`. -/
def lt (a b : F64) : Bool := partialCmp a b == some .lt
/-- `a > b` on `f64`. -/
def gt (a b : F64) : Bool := partialCmp a b == some .gt
/-- `a <= b` on `f64`. -/
def le (a b : F64) : Bool := partialCmp a b == some .lt || partialCmp a b == some .eq
/-- `a >= b` on `f64`. -/
def ge (a b : F64) : Bool := partialCmp a b == some .gt || partialCmp a b == some .eq
/-- `a == b` on `f64`. -/
def eq (a b : F64) : Bool := partialCmp a b == some .eq

/-- `2^e` for an integer exponent. -/
def pow2 (e : Int) : Rat := if 0 ≤ e then (2 ^ e.toNat : Nat) else 1 / ((2 ^ (-e).toNat : Nat) : Rat)

/-- `⌊log₂ q⌋` for `q > 0`. -/
def ilog2 (q : Rat) : Int :=
  let k : Int := (Nat.log2 q.num.natAbs : Int) - (Nat.log2 q.den : Int)
  if q < pow2 k then k - 1 else k

/-- Round to the nearest integer, ties to even. -/
def roundHalfEven (q : Rat) : Int :=
  let f := q.floor
  let r := q - f
  if r < 1/2 then f
  else if 1/2 < r then f + 1
  else if f % 2 = 0 then f else f + 1

/-- Rounding of a positive rational to 53 significant bits with the smallest exponent of
binary64 (gradual underflow); no overflow check yet. -/
def rndPos (q : Rat) : Rat :=
  let e := max (ilog2 q - 52) (-1074)
  (roundHalfEven (q / pow2 e) : Rat) * pow2 e

/-- IEEE-754 binary64 rounding (to nearest, ties to even) of an exact rational result. -/
def rnd (q : Rat) : F64 :=
  if q = 0 then fin 0
  else if 0 < q then
    let r := rndPos q
    if pow2 1024 ≤ r then inf false else fin r
  else
    let r := rndPos (-q)
    if pow2 1024 ≤ r then inf true else if r = 0 then negZero else fin (-r)

/-- `n as f64` for an integer. -/
def ofInt (n : Int) : F64 := rnd (n : Rat)

/-- `a + b`. -/
def add : F64 → F64 → F64
  | nan, _ => nan
  | _, nan => nan
  | inf s, inf t => if s = t then inf s else nan
  | inf s, _ => inf s
  | _, inf t => inf t
  | negZero, negZero => negZero
  | negZero, fin q => fin q
  | fin p, negZero => fin p
  | fin p, fin q => rnd (p + q)

/-- `-a`. -/
def neg : F64 → F64
  | nan => nan
  | inf s => inf !s
  | negZero => fin 0
  | fin q => if q = 0 then negZero else fin (-q)

/-- `a - b`. -/
def sub (a b : F64) : F64 := add a (neg b)

/-- `a.abs()`. -/
def abs : F64 → F64
  | nan => nan
  | inf _ => inf false
  | negZero => fin 0
  | fin q => fin (if q < 0 then -q else q)

/-- `a / d` for a finite divisor `d > 0` (the only divisions in the modelled code: by a positive
count and by `2.0`). -/
def divPos (a : F64) (d : Rat) : F64 :=
  match a with
  | nan => nan
  | inf s => inf s
  | negZero => negZero
  | fin q => if q = 0 then fin 0 else rnd (q / d)

/-- `f64::EPSILON = 2^-52`. -/
def epsilon : F64 := fin (pow2 (-52))

end F64

/-! ## Decimals, date-times -/

/-- `rust_decimal::Decimal`: `mant / 10^scale`. The crate's limits (96-bit mantissa, scale at most
28) are the predicate `Decimal.fits`; the type itself is wider. -/
structure Decimal where
  mant : Int
  scale : Nat
  deriving DecidableEq, Repr, Inhabited

/-- Exact value of a decimal. -/
def Decimal.val (d : Decimal) : Rat := (d.mant : Rat) / ((10 ^ d.scale : Nat) : Rat)

/-- `Decimal` comparison is by value (`1.0 == 1.00`). -/
def Decimal.cmp (a b : Decimal) : Ordering := ratCmp a.val b.val

/-- Representable by `rust_decimal`: 96-bit mantissa, scale at most 28. -/
def Decimal.fits (d : Decimal) : Bool := d.mant.natAbs < 2 ^ 96 && d.scale ≤ 28

/-- The exact sum: bring to the larger scale and add the mantissas. -/
def Decimal.addExact (a b : Decimal) : Decimal :=
  let s := max a.scale b.scale
  ⟨a.mant * (10 ^ (s - a.scale) : Nat) + b.mant * (10 ^ (s - b.scale) : Nat), s⟩

/-- `chrono::DateTime<FixedOffset>`: instant in UTC seconds and nanoseconds, and the offset
(local minus UTC) in seconds. Simplification: leap seconds and chrono's year range are not modelled. -/
structure DateTime where
  secs : Int
  nanos : Nat
  offset : Int
  deriving DecidableEq, Repr, Inhabited

/-- `DateTime::cmp` compares instants only. -/
def DateTime.cmp (a b : DateTime) : Ordering :=
  (compare a.secs b.secs).then (compare a.nanos b.nanos)

/-- `DateTime::date_naive()` as a day number (days since 1970-01-01 of the local date). -/
def DateTime.localDay (d : DateTime) : Int := (d.secs + d.offset) / 86400

/-! ## Field values and entities -/

/-- `FieldType` — firm_core/src/field.rs:13-24. -/
inductive FieldType where
  | boolean | string | integer | float | currency | reference | list | dateTime | path | enum
  deriving DecidableEq, Repr, Inhabited

/-- `ReferenceValue` — firm_core/src/field.rs:45-48. -/
inductive ReferenceValue where
  | entity (id : EntityId)
  | field (id : EntityId) (f : FieldId)
  deriving DecidableEq, Repr, Inhabited

/-- `Display for ReferenceValue` — firm_core/src/field.rs:50-57. -/
def ReferenceValue.display : ReferenceValue → Str
  | .entity id => id
  | .field id f => id ++ '.' :: f

/-- `FieldValue` — firm_core/src/field.rs:61-72. `i64` is rendered as `Int`,
`iso_currency::Currency` as its code, `PathBuf` as its text. -/
inductive FieldValue where
  | boolean (b : Bool)
  | string (s : Str)
  | integer (n : Int)
  | float (f : F64)
  | currency (amount : Decimal) (code : Str)
  | reference (r : ReferenceValue)
  | list (items : List FieldValue)
  | dateTime (d : DateTime)
  | path (p : Str)
  | enum (s : Str)
  deriving Repr, Inhabited

/-- `FieldValue::get_type` — firm_core/src/field.rs:102-119. -/
def FieldValue.getType : FieldValue → FieldType
  | .boolean _ => .boolean
  | .string _ => .string
  | .integer _ => .integer
  | .float _ => .float
  | .currency _ _ => .currency
  | .reference _ => .reference
  | .list _ => .list
  | .dateTime _ => .dateTime
  | .path _ => .path
  | .enum _ => .enum

/-- `FieldValue::is_type` — firm_core/src/field.rs:122-124. -/
def FieldValue.isType (v : FieldValue) (t : FieldType) : Bool := v.getType == t

mutual
/-- Structural equality test on field values (used only for decidability of examples). -/
def FieldValue.decEq : (a b : FieldValue) → Decidable (a = b)
  | .boolean a, .boolean b => decidable_of_iff (a = b) (by simp)
  | .string a, .string b => decidable_of_iff (a = b) (by simp)
  | .integer a, .integer b => decidable_of_iff (a = b) (by simp)
  | .float a, .float b => decidable_of_iff (a = b) (by simp)
  | .currency a c, .currency b d => decidable_of_iff (a = b ∧ c = d) (by simp)
  | .reference a, .reference b => decidable_of_iff (a = b) (by simp)
  | .list a, .list b =>
    match FieldValue.decEqList a b with
    | isTrue h => isTrue (by rw [h])
    | isFalse h => isFalse (by simpa using h)
  | .dateTime a, .dateTime b => decidable_of_iff (a = b) (by simp)
  | .path a, .path b => decidable_of_iff (a = b) (by simp)
  | .enum a, .enum b => decidable_of_iff (a = b) (by simp)
  | .boolean _, .string _ | .boolean _, .integer _ | .boolean _, .float _ | .boolean _, .currency _ _
  | .boolean _, .reference _ | .boolean _, .list _ | .boolean _, .dateTime _ | .boolean _, .path _
  | .boolean _, .enum _ => isFalse (by simp)
  | .string _, .boolean _ | .string _, .integer _ | .string _, .float _ | .string _, .currency _ _
  | .string _, .reference _ | .string _, .list _ | .string _, .dateTime _ | .string _, .path _
  | .string _, .enum _ => isFalse (by simp)
  | .integer _, .boolean _ | .integer _, .string _ | .integer _, .float _ | .integer _, .currency _ _
  | .integer _, .reference _ | .integer _, .list _ | .integer _, .dateTime _ | .integer _, .path _
  | .integer _, .enum _ => isFalse (by simp)
  | .float _, .boolean _ | .float _, .string _ | .float _, .integer _ | .float _, .currency _ _
  | .float _, .reference _ | .float _, .list _ | .float _, .dateTime _ | .float _, .path _
  | .float _, .enum _ => isFalse (by simp)
  | .currency _ _, .boolean _ | .currency _ _, .string _ | .currency _ _, .integer _
  | .currency _ _, .float _ | .currency _ _, .reference _ | .currency _ _, .list _
  | .currency _ _, .dateTime _ | .currency _ _, .path _ | .currency _ _, .enum _ => isFalse (by simp)
  | .reference _, .boolean _ | .reference _, .string _ | .reference _, .integer _
  | .reference _, .float _ | .reference _, .currency _ _ | .reference _, .list _
  | .reference _, .dateTime _ | .reference _, .path _ | .reference _, .enum _ => isFalse (by simp)
  | .list _, .boolean _ | .list _, .string _ | .list _, .integer _
  | .list _, .float _ | .list _, .currency _ _ | .list _, .reference _
  | .list _, .dateTime _ | .list _, .path _ | .list _, .enum _ => isFalse (by simp)
  | .dateTime _, .boolean _ | .dateTime _, .string _ | .dateTime _, .integer _
  | .dateTime _, .float _ | .dateTime _, .currency _ _ | .dateTime _, .reference _
  | .dateTime _, .list _ | .dateTime _, .path _ | .dateTime _, .enum _ => isFalse (by simp)
  | .path _, .boolean _ | .path _, .string _ | .path _, .integer _
  | .path _, .float _ | .path _, .currency _ _ | .path _, .reference _
  | .path _, .list _ | .path _, .dateTime _ | .path _, .enum _ => isFalse (by simp)
  | .enum _, .boolean _ | .enum _, .string _ | .enum _, .integer _
  | .enum _, .float _ | .enum _, .currency _ _ | .enum _, .reference _
  | .enum _, .list _ | .enum _, .dateTime _ | .enum _, .path _ => isFalse (by simp)
/-- Equality test on lists of field values. -/
def FieldValue.decEqList : (a b : List FieldValue) → Decidable (a = b)
  | [], [] => isTrue rfl
  | [], _ :: _ => isFalse (by simp)
  | _ :: _, [] => isFalse (by simp)
  | a :: as, b :: bs =>
    match FieldValue.decEq a b, FieldValue.decEqList as bs with
    | isTrue h, isTrue h' => isTrue (by rw [h, h'])
    | isFalse h, _ => isFalse (by simp [h])
    | _, isFalse h => isFalse (by simp [h])
end

instance : DecidableEq FieldValue := FieldValue.decEq

/-- `Entity` — firm_core/src/entity.rs:9-13. -/
structure Entity where
  id : EntityId
  entityType : EntityType
  fields : List (FieldId × FieldValue)
  deriving DecidableEq, Repr, Inhabited

/-- `Entity::new` — firm_core/src/entity.rs:17-23. -/
def Entity.new (id : EntityId) (t : EntityType) : Entity := ⟨id, t, []⟩

/-- `Entity::with_field` — firm_core/src/entity.rs:26-32: pushes at the end, no replacement. -/
def Entity.withField (e : Entity) (f : FieldId) (v : FieldValue) : Entity :=
  { e with fields := e.fields ++ [(f, v)] }

/-- `Entity::get_field` — firm_core/src/entity.rs:35-40: the first field with that id. -/
def Entity.getField (e : Entity) (f : FieldId) : Option FieldValue :=
  (e.fields.find? (fun p => p.1 == f)).map (·.2)

/-! ## External functions -/

/-- Functions of third-party crates / `std` that are parameters of the model. Theorems hold for
every `Env`. -/
structure Env where
  /-- Unicode `str::to_lowercase`. -/
  lower : Str → Str
  /-- `Decimal::from_f64_retain`. -/
  decOfF64 : F64 → Option Decimal
  /-- `Decimal::to_f64` (`unwrap_or(0.0)` is applied by the caller). -/
  decToF64 : Decimal → Option F64
  /-- Result of `a + b` on decimals when the exact sum does not fit (`rust_decimal` then reduces
  the scale, rounding; `none` stands for the panic when even that overflows). -/
  decAddWide : Decimal → Decimal → Option Decimal
  /-- Are integer overflow checks compiled in (debug: yes, release: no)? -/
  overflowChecks : Bool
  /-- `str::parse::<DateTime<FixedOffset>>`, tried first by the date-time filter. -/
  parseDateTime : Str → Option DateTime
  /-- `NaiveDate::parse_from_str(_, "%Y-%m-%d")`, as a day number. -/
  parseDate : Str → Option Int

/-- ASCII lower-casing of one character (`u8::to_ascii_lowercase`). -/
def asciiLower (s : Str) : Str := s.map Char.toLower

/-- `str::eq_ignore_ascii_case`. -/
def eqIgnoreAsciiCase (a b : Str) : Bool := asciiLower a == asciiLower b

/-- `char::is_whitespace` (Unicode `White_Space`). -/
def isWs (c : Char) : Bool :=
  let n := c.toNat
  (0x9 ≤ n && n ≤ 0xD) || n == 0x20 || n == 0x85 || n == 0xA0 || n == 0x1680
    || (0x2000 ≤ n && n ≤ 0x200A) || n == 0x2028 || n == 0x2029 || n == 0x202F
    || n == 0x205F || n == 0x3000

/-- `str::trim_start`. -/
def trimStart (s : Str) : Str := s.dropWhile isWs
/-- `str::trim_end`. -/
def trimEnd (s : Str) : Str := (s.reverse.dropWhile isWs).reverse
/-- `str::trim`. -/
def trim (s : Str) : Str := trimEnd (trimStart s)

/-- `hay.starts_with(needle)`. -/
def startsWith (hay needle : Str) : Bool := needle.isPrefixOf hay
/-- `hay.ends_with(needle)`. -/
def endsWith (hay needle : Str) : Bool := needle.isSuffixOf hay
/-- `hay.contains(needle)`: some suffix of `hay` starts with `needle`. -/
def strContains : Str → Str → Bool
  | [], needle => needle.isEmpty
  | c :: hay, needle => startsWith (c :: hay) needle || strContains hay needle

end Firm
