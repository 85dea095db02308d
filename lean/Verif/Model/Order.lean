import Verif.Model.Filter

/-!
# Ordering of entities

Rust source: `/repo/firm_core/src/graph/query/order.rs`.
-/

namespace Firm

/-- `SortDirection` — query/types.rs:17-21. -/
inductive SortDirection where
  | ascending | descending
  deriving DecidableEq, Repr, Inhabited

/-- `std::path::Component` on Unix, in its derived order `RootDir < CurDir < ParentDir < Normal`. -/
inductive PathComp where
  | rootDir | curDir | parentDir | normal (s : Str)
  deriving DecidableEq, Repr, Inhabited

/-- Pieces of a text between separators. -/
def splitChar (c : Char) : Str → List Str
  | [] => [[]]
  | x :: xs =>
    if x = c then [] :: splitChar c xs
    else
      match splitChar c xs with
      | [] => [[x]]
      | p :: ps => (x :: p) :: ps

/-- One piece of a path after the first: empty pieces and `.` are skipped. -/
def pieceComp (p : Str) : Option PathComp :=
  if p = [] then none
  else if p = ['.'] then none
  else if p = ['.', '.'] then some .parentDir
  else some (.normal p)

/-- `Path::components` on Unix. -/
def pathComponents (p : Str) : List PathComp :=
  match p with
  | [] => []
  | '/' :: _ => .rootDir :: (splitChar '/' p).filterMap pieceComp
  | _ =>
    match splitChar '/' p with
    | first :: rest =>
      (if first = ['.'] then [PathComp.curDir] else (pieceComp first).toList) ++
        rest.filterMap pieceComp
    | [] => []

/-- Rank of a component kind. -/
def PathComp.rank : PathComp → Nat
  | .rootDir => 0
  | .curDir => 1
  | .parentDir => 2
  | .normal _ => 3

/-- Text of a component, empty for the special ones. -/
def PathComp.text : PathComp → Str
  | .normal s => s
  | _ => []

/-- Derived order on components. -/
def PathComp.cmp (a b : PathComp) : Ordering := (compare a.rank b.rank).then (strCmp a.text b.text)

/-- `Path::cmp`: component-wise, shorter first. -/
def pathCmp (a b : Str) : Ordering := List.compareLex PathComp.cmp (pathComponents a) (pathComponents b)

/-- The `(Float, Float)` case of `compare_field_values` — order.rs:64-75: NaN sorts last. -/
def floatCmp (a b : F64) : Ordering :=
  if a.isNan && b.isNan then .eq
  else if a.isNan then .gt
  else if b.isNan then .lt
  else (a.partialCmp b).getD .eq

/-- The `(Currency, Currency)` case — order.rs:79-96. -/
def currencyCmp (a : Decimal) (ac : Str) (b : Decimal) (bc : Str) : Ordering :=
  if ac = bc then a.cmp b else strCmp ac bc

/-- `type_order` — order.rs:141-151. -/
def typeOrder : FieldValue → Nat
  | .boolean _ => 0
  | .integer _ | .float _ => 1
  | .string _ | .enum _ | .path _ => 2
  | .dateTime _ => 3
  | .currency _ _ => 4
  | .reference _ => 5
  | .list _ => 6

mutual
/-- `compare_field_values` — order.rs:56-137 (with `compare_type_precedence` — order.rs:140-153). -/
def compareFieldValues (env : Env) : FieldValue → FieldValue → Ordering
  | .boolean a, .boolean b => compare a b
  | .integer a, .integer b => compare a b
  | .float a, .float b => floatCmp a b
  | .string a, .string b => strCmp (env.lower a) (env.lower b)
  | .enum a, .enum b => strCmp (env.lower a) (env.lower b)
  | .dateTime a, .dateTime b => a.cmp b
  | .currency a ac, .currency b bc => currencyCmp a ac b bc
  | .reference a, .reference b => strCmp (env.lower a.display) (env.lower b.display)
  | .path a, .path b => pathCmp a b
  | .integer a, .float b =>
    if b.isNan then .lt else ((F64.ofInt a).partialCmp b).getD .eq
  | .float a, .integer b =>
    if a.isNan then .gt else (a.partialCmp (F64.ofInt b)).getD .eq
  | .list a, .list b => compareFieldLists env a b
  | a, b => compare (typeOrder a) (typeOrder b)
/-- The element loop of the `(List, List)` case — order.rs:122-131. -/
def compareFieldLists (env : Env) : List FieldValue → List FieldValue → Ordering
  | [], [] => .eq
  | [], _ :: _ => .lt
  | _ :: _, [] => .gt
  | a :: as, b :: bs =>
    match compareFieldValues env a b with
    | .eq => compareFieldLists env as bs
    | o => o
end

/-- The missing-value table — order.rs:21-27. -/
def compareOptValues (env : Env) : Option FieldValue → Option FieldValue → Ordering
  | none, none => .eq
  | none, some _ => .gt
  | some _, none => .lt
  | some a, some b => compareFieldValues env a b

/-- The undirected part of `compare_entities_by_field` — order.rs:16-45. -/
def compareEntitiesAsc (env : Env) (f : FieldRef) (a b : Entity) : Ordering :=
  match f with
  | .regular fid => compareOptValues env (a.getField fid) (b.getField fid)
  | .metadata .type => strCmp (env.lower a.entityType) (env.lower b.entityType)
  | .metadata .id => strCmp (env.lower a.id) (env.lower b.id)

/-- `compare_entities_by_field` — order.rs:8-53. -/
def compareEntitiesByField (env : Env) (f : FieldRef) (dir : SortDirection) (a b : Entity) :
    Ordering :=
  match dir with
  | .ascending => compareEntitiesAsc env f a b
  | .descending => (compareEntitiesAsc env f a b).swap

/-- The comparator handed to `sort_by`, as "not greater" — query/types.rs:184-188. -/
def orderLe (env : Env) (f : FieldRef) (dir : SortDirection) (a b : Entity) : Bool :=
  (compareEntitiesByField env f dir a b).isLE

end Firm
