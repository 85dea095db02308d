import Verif.Model.Calendar

/-!
# Literals of the DSL: parsing

Rust source: `/repo/firm_lang/src/parser/dsl/parsed_value.rs`.
-/

namespace Firm

/-- Everything the language crate takes from its surroundings. Theorems hold for every `Lang`. -/
structure Lang where
  /-- The parameters of the core crate (overflow checks, lower-casing in schemas). -/
  env : Env
  /-- Unicode case data. -/
  cases : CaseTable
  /-- `Local::now().offset()` in seconds. -/
  localOffset : Int
  /-- Is the text an ISO currency code (`Currency::from_str` succeeds)? -/
  knownCurrency : Str → Bool
  /-- `str::parse::<f64>()`. -/
  parseF64 : Str → Option F64
  /-- `f64::to_string()`. -/
  showF64 : F64 → Str

/-- `ParsedValue` — parsed_value.rs:51-81. -/
inductive ParsedValue where
  | boolean (b : Bool)
  | string (s : Str)
  | integer (n : Int)
  | float (f : F64)
  | currency (amount : Decimal) (code : Str)
  | entityRef (type id : Str)
  | fieldRef (type id field : Str)
  | list (items : List ParsedValue)
  | dateTime (d : DateTime)
  | path (p : Str)
  | enum (s : Str)
  deriving Repr, Inhabited

/-- `ParsedValue::get_type_name` — parsed_value.rs:85-99. -/
def ParsedValue.typeName : ParsedValue → Str
  | .boolean _ => "Boolean".toList
  | .string _ => "String".toList
  | .integer _ => "Integer".toList
  | .float _ => "Float".toList
  | .currency _ _ => "Currency".toList
  | .entityRef _ _ => "EntityReference".toList
  | .fieldRef _ _ _ => "FieldReference".toList
  | .list _ => "List".toList
  | .dateTime _ => "DateTime".toList
  | .path _ => "Path".toList
  | .enum _ => "Enum".toList

/-- `ValueParseError` — parser_errors.rs:26-51; `panic` stands for a Rust panic inside a parser. -/
inductive ValueParseError where
  | unknownValueKind
  | missingValue
  | missingParseMethod
  | invalidBoolean (s : Str)
  | invalidInteger (s : Str)
  | invalidFloat (s : Str)
  | invalidCurrencyFormat (source : Str) (parts : Nat)
  | invalidCurrencyAmount (s : Str)
  | invalidCurrencyCode (s : Str)
  | invalidReferenceFormat (source : Str) (parts : Nat)
  | invalidDate (s : Str)
  | invalidDateTime (s : Str)
  | invalidTimezone (s : Str)
  | heterogeneousList (expected found : Str) (index : Nat)
  | panic
  deriving DecidableEq, Repr, Inhabited

/-- Result of parsing a value. -/
abbrev ValueResult := Except ValueParseError ParsedValue

/-- `parse_boolean` — parsed_value.rs:133-137. -/
def parseBoolean (raw : Str) : ValueResult :=
  if raw = "true".toList then .ok (.boolean true)
  else if raw = "false".toList then .ok (.boolean false)
  else .error (.invalidBoolean raw)

/-- Width in bytes of the white space a line begins with — parsed_value.rs:375. -/
def lineIndent (line : Str) : Nat := byteLen line - byteLen (trimStart line)

/-- The common indentation — parsed_value.rs:372-377. -/
def minIndent (lines : List Str) : Nat :=
  (((lines.filter fun l => !(trim l).isEmpty).map lineIndent).min?).getD 0

/-- One line cut at the common indentation — parsed_value.rs:382-388; `none` is a panic. -/
def cutLine (n : Nat) (line : Str) : Option Str :=
  if n ≤ byteLen line then dropBytes n line else some line

/-- `trim_common_indentation` — parsed_value.rs:368-393; `none` is a panic of the slicing. -/
def trimCommonIndentation (s : Str) : Option Str :=
  let lines := strLines s
  ((lines.mapM (cutLine (minIndent lines)))).map fun ls => trim (joinWith ['\n'] ls)

/-- `"\"\"\""`. -/
def tripleQuote : Str := ['"', '"', '"']

/-- `parse_string` — parsed_value.rs:140-155. -/
def parseString (raw : Str) : ValueResult :=
  if startsWith raw tripleQuote && endsWith raw tripleQuote then
    match trimCommonIndentation (trimTripleEnd (trimTriple raw)) with
    | some s => .ok (.string s)
    | none => .error .panic
  else .ok (.string (trimMatches '"' raw))

/-- `parse_number` — parsed_value.rs:158-171. -/
def parseNumber (L : Lang) (raw : Str) : ValueResult :=
  if '.' ∈ raw then
    match L.parseF64 raw with
    | some f => .ok (.float f)
    | none => .error (.invalidFloat raw)
  else
    match parseI64 raw with
    | some n => .ok (.integer n)
    | none => .error (.invalidInteger raw)

/-- `Decimal::from_str_exact`: sign, digits with at most one point, at least one digit, no more than
28 decimals and 96 bits of mantissa. Simplification: `_` between digits is accepted by the crate, not
here; the sign of a zero is lost. -/
def parseDecimal (s : Str) : Option Decimal :=
  let (neg, body) := match s with
    | '-' :: r => (true, r)
    | '+' :: r => (false, r)
    | r => (false, r)
  let parts := match splitChar '.' body with
    | [a] => some (a, [])
    | [a, b] => some (a, b)
    | _ => none
  parts.bind fun p =>
    (parseNat (p.1 ++ p.2)).bind fun m =>
      let d : Decimal := ⟨if neg then -(m : Int) else (m : Int), p.2.length⟩
      if d.fits then some d else none

/-- `parse_currency` — parsed_value.rs:174-194. -/
def parseCurrency (L : Lang) (raw : Str) : ValueResult :=
  match splitChar ' ' raw with
  | [amount, code] =>
    match parseDecimal amount with
    | none => .error (.invalidCurrencyAmount amount)
    | some d =>
      if L.knownCurrency code then .ok (.currency d code) else .error (.invalidCurrencyCode code)
  | parts => .error (.invalidCurrencyFormat raw parts.length)

/-- `parse_reference` — parsed_value.rs:197-217. -/
def parseReference (raw : Str) : ValueResult :=
  match splitChar '.' raw with
  | [t, i] => .ok (.entityRef t i)
  | [t, i, f] => .ok (.fieldRef t i f)
  | parts => .error (.invalidReferenceFormat raw parts.length)

/-- The loop of `parse_list_from_vec` after the first item — parsed_value.rs:224-242. -/
def checkItems (expected : Str) : Nat → List ParsedValue → Except ValueParseError Unit
  | _, [] => .ok ()
  | i, v :: vs =>
    if v.typeName ≠ expected then .error (.heterogeneousList expected v.typeName i)
    else checkItems expected (i + 1) vs

/-- `parse_list_from_vec` — parsed_value.rs:221-245. -/
def parseListFromVec (items : List ParsedValue) : ValueResult :=
  match items with
  | [] => .ok (.list [])
  | v :: vs =>
    match checkItems v.typeName 1 vs with
    | .ok _ => .ok (.list (v :: vs))
    | .error e => .error e

/-- The date-time of a local day and minute under an offset (`from_local_datetime(..).single()` of a
`FixedOffset`). Simplification: chrono's range check of the shifted instant is not modelled. -/
def localDateTime (day : Int) (minutes : Nat) (offset : Int) : DateTime :=
  ⟨day * 86400 + minutes * 60 - offset, 0, offset⟩

/-- `parse_date` — parsed_value.rs:275-291. -/
def parseDate (L : Lang) (raw : Str) : ValueResult :=
  match parseCivil raw with
  | none => .error (.invalidDate raw)
  | some day => .ok (.dateTime (localDateTime day 0 L.localOffset))

/-- `i32` arithmetic modulo 2³². -/
def wrapI32 (n : Int) : Int := (n + 2 ^ 31) % 2 ^ 32 - 2 ^ 31

/-- `hours * 3600` on `i32`; `none` is the overflow panic. -/
def hoursToSeconds (L : Lang) (hours : Int) : Option Int :=
  let s := hours * 3600
  if -(2 ^ 31) ≤ s ∧ s < 2 ^ 31 then some s
  else if L.env.overflowChecks then none else some (wrapI32 s)

/-- `parse_utc_offset` — parsed_value.rs:396-408, in seconds. `FixedOffset::east_opt` accepts the
offsets strictly between −24 h and 24 h. -/
def parseUtcOffset (L : Lang) (s : Str) : Except ValueParseError Int :=
  if s = [] then .ok 0
  else
    match parseI32 s with
    | none => .error (.invalidTimezone s)
    | some hours =>
      match hoursToSeconds L hours with
      | none => .error .panic
      | some secs => if -86400 < secs ∧ secs < 86400 then .ok secs else .error (.invalidTimezone s)

/-- `" UTC"`. -/
def utcMark : Str := [' ', 'U', 'T', 'C']
/-- `" at "`. -/
def atMark : Str := [' ', 'a', 't', ' ']

/-- Time of day and offset of the second half of a date-time — parsed_value.rs:304-312. -/
def splitZone (L : Lang) (s : Str) : Except ValueParseError (Str × Int) :=
  if strContains s utcMark then
    let parts := splitStr utcMark s
    (parseUtcOffset L (parts[1]?.getD [])).map fun o => (parts.headD [], o)
  else .ok (s, L.localOffset)

/-- `parse_datetime` — parsed_value.rs:294-330. -/
def parseDateTime (L : Lang) (raw : Str) : ValueResult :=
  match splitStr atMark raw with
  | [date, rest] =>
    match parseCivil date with
    | none => .error (.invalidDateTime raw)
    | some day =>
      match splitZone L rest with
      | .error e => .error e
      | .ok (time, offset) =>
        match parseTime time with
        | none => .error (.invalidDateTime raw)
        | some m => .ok (.dateTime (localDateTime day m offset))
  | _ => .error (.invalidDateTime raw)

/-! ## Paths -/

/-- Text of a path given by components (`iter().collect::<PathBuf>()`, on Unix). -/
def compText : PathComp → Str
  | .rootDir => ['/']
  | .curDir => ['.']
  | .parentDir => ['.', '.']
  | .normal s => s

/-- Text of a sequence of components. -/
def showComps : List PathComp → Str
  | .rootDir :: cs => '/' :: joinWith ['/'] (cs.map compText)
  | cs => joinWith ['/'] (cs.map compText)

/-- One step of `path_clean::clean` (1.0.1); the components kept so far are in reverse order. -/
def cleanStep (out : List PathComp) : PathComp → List PathComp
  | .curDir => out
  | .parentDir =>
    match out with
    | .rootDir :: _ => out
    | .normal _ :: rest => rest
    | _ => .parentDir :: out
  | c => c :: out

/-- `path_clean::clean` on components. -/
def cleanComps (cs : List PathComp) : List PathComp := (cs.foldl cleanStep []).reverse

/-- `Path::parent` as components; `none` for the empty path and the root. -/
def parentComps (p : Str) : Option (List PathComp) :=
  match (pathComponents p).reverse with
  | [] => none
  | .rootDir :: _ => none
  | _ :: rest => some rest.reverse

/-- Text between the quotes of a `path"…"` literal — parsed_value.rs:338. -/
def pathLiteralText (raw : Str) : Str := trimMatches '"' (strReplace "path\"".toList [] raw)

/-- `target_path` made relative to the workspace and cleaned — parsed_value.rs:342-351. The components
of `dir.join(target)` are those of both, `.` apart, which cleaning drops anyway. -/
def resolvePath (target source : Str) : List PathComp :=
  let t := pathComponents target
  if startsWith target ['/'] then cleanComps t
  else cleanComps ((parentComps source).getD [] ++ t)

/-- Text of a cleaned path, `.` when nothing is left. -/
def cleanText (cs : List PathComp) : Str := if cs = [] then ['.'] else showComps cs

/-- Is it a relative path that does not begin with `..`? — parsed_value.rs:352. -/
def isInnerPath : List PathComp → Bool
  | .rootDir :: _ => false
  | .parentDir :: _ => false
  | _ => true

/-- `parse_path` — parsed_value.rs:337-359. -/
def parsePath (raw source : Str) : ValueResult :=
  let cs := resolvePath (pathLiteralText raw) source
  if isInnerPath cs then .ok (.path ('.' :: '/' :: cleanText cs)) else .ok (.path (cleanText cs))

/-- `parse_enum` — parsed_value.rs:362-365. -/
def parseEnum (raw : Str) : ValueResult :=
  .ok (.enum (trimMatches '"' (strReplace "enum\"".toList [] raw)))

end Firm
