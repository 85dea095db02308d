import Verif.Conformance.Basic
import Verif.Model.Query
import Verif.Lemmas.Sort

/-!
# The project's unit tests of entities, schemas, graphs and queries
-/

namespace Firm.Conformance

/-- `EntityId::new`, `FieldId::new`, `EntityType::new`. -/
def named (s : String) : Str := asciiTable.snake s.toList

/-- `Entity::new(..)` with text fields and further fields. -/
def entityOf (id type : String) (fields : List (String × FieldValue)) : Entity :=
  fields.foldl (fun e p => e.withField (named p.1) p.2) (Entity.new (named id) (named type))

/-- A text field. -/
def aText (s : String) : FieldValue := .string s.toList
/-- A reference to an entity. -/
def anEntityRef (id : String) : FieldValue := .reference (.entity (named id))
/-- A reference to a field. -/
def aFieldRef (id f : String) : FieldValue := .reference (.field (named id) (named f))

/-- `add_entities(..).unwrap()` on an empty graph. -/
def graphOf (es : List Entity) : Graph := (Graph.empty.addEntities es).1

/-- `is_ok()`. -/
def fine {ε α : Type} : Except ε α → Bool
  | .ok _ => true
  | .error _ => false

/-- `assert_eq!(r.unwrap_err(), e)`. -/
def refuses {α : Type} (r : Except GraphError α) (e : GraphError) : Bool :=
  match r with
  | .ok _ => false
  | .error e' => e' == e

/-- `assert_eq!(r.unwrap(), x)`. -/
def resolves {α : Type} [BEq α] (r : Except GraphError α) (x : α) : Bool :=
  match r with
  | .ok y => y == x
  | .error _ => false

/-- The ids of the entities found. -/
def idsOf (r : Option (List Entity)) : Option (List Str) := r.map (·.map (·.id))

/-- Are these exactly the ids, in some order? -/
def sameIds (l : List Str) (ids : List String) : Bool :=
  l.length == ids.length && ids.all fun i => l.contains (named i)

/-! ## firm_core/src/entity.rs -/

/- test_entity_create_new -/
example : checks [(entityOf "john_doe" "person" []).id == "john_doe".toList,
    (entityOf "john_doe" "person" []).entityType == "person".toList,
    (entityOf "john_doe" "person" []).fields.isEmpty] := by decide +kernel

/- test_entity_with_fields -/
example :
    let e := entityOf "john_doe" "person" [("name", aText "John Doe"), ("email", aText "john@example.com")]
    checks [e.getField (named "name") == some (aText "John Doe"),
      e.getField (named "email") == some (aText "john@example.com"),
      e.getField (named "nonexistant") == none] := by decide +kernel

/- test_entity_different_types -/
example : checks [(entityOf "john_doe" "person" []).entityType == named "person",
    (entityOf "megacorp" "organization" []).entityType == named "organization"] := by decide +kernel

/-! ## firm_core/src/schema/validation.rs -/

/-- The schema of the first tests. -/
def personSchema : EntitySchema :=
  ((EntitySchema.new (named "person")).withRequiredField (named "name") .string).withOptionalField
    (named "email") .string
/-- The schema with an enum. -/
def accountSchema : EntitySchema :=
  (EntitySchema.new (named "account")).withRequiredEnum projectEnv (named "status")
    ["prospect".toList, "customer".toList, "partner".toList]
/-- The schema with an enum of two values. -/
def shortSchema : EntitySchema :=
  (EntitySchema.new (named "account")).withRequiredEnum projectEnv (named "status")
    ["prospect".toList, "customer".toList]
/-- An account with a status. -/
def accountOf (s : String) : Entity := entityOf "test_account" "account" [("status", .enum s.toList)]
/-- The only error of a validation. -/
def onlyError (r : Except (List ValidationError) Unit) (e : ValidationErrorType) : Bool :=
  match r with
  | .error [x] => x.errorType == e
  | _ => false

/- test_validate_ok -/
example : checks [fine (personSchema.validate projectEnv
    (entityOf "test_person" "person" [("name", aText "John Doe")]))] := by decide +kernel
/- test_validate_error_mismatched_entity_types -/
example : checks [onlyError ((EntitySchema.new (named "test_a")).validate projectEnv
    (entityOf "test" "test_b" [])) (.mismatchedEntityType "test_a".toList "test_b".toList)] := by
  decide +kernel
/- test_validate_error_missing_field -/
example : checks [onlyError ((((EntitySchema.new (named "person")).withRequiredField (named "name")
    .string).withRequiredField (named "email") .string).validate projectEnv
    (entityOf "test_person" "person" [("name", aText "John Doe")]))
    (.missingRequiredField "email".toList)] := by decide +kernel
/- test_validate_error_mismatched_field_types -/
example : checks [onlyError (((EntitySchema.new (named "person")).withRequiredField
    (named "is_nice") .boolean).validate projectEnv
    (entityOf "test_person" "person" [("is_nice", aText "Sure")]))
    (.mismatchedFieldType .boolean .string)] := by decide +kernel
/- test_validate_enum_with_valid_value, test_validate_enum_with_case_insensitive_match,
test_validate_enum_with_whitespace_trimmed -/
example : checks [fine (accountSchema.validate projectEnv (accountOf "customer")),
    fine (shortSchema.validate projectEnv (accountOf "CUSTOMER")),
    fine (shortSchema.validate projectEnv (accountOf "  customer  "))] := by decide +kernel
/- test_validate_enum_with_invalid_value -/
example : checks [onlyError (accountSchema.validate projectEnv (accountOf "client"))
    (.invalidEnumValue "client".toList
      ["prospect".toList, "customer".toList, "partner".toList])] := by decide +kernel
/- test_validate_optional_enum_can_be_missing, test_validate_optional_enum_validates_when_present -/
example :
    let s := (EntitySchema.new (named "account")).withOptionalEnum projectEnv (named "status")
      ["prospect".toList, "customer".toList]
    checks [fine (s.validate projectEnv (entityOf "test_account" "account" [])),
      onlyError (s.validate projectEnv (accountOf "invalid"))
        (.invalidEnumValue "invalid".toList ["prospect".toList, "customer".toList])] := by
  decide +kernel
/- schema/mod.rs: test_schema_create_new -/
example : checks [personSchema.entityType == "person".toList,
    (mapGet personSchema.fields (named "name")).map (fun f => (f.fieldType, f.fieldMode)) ==
      some (.string, .required),
    (mapGet personSchema.fields (named "email")).map (fun f => (f.fieldType, f.fieldMode)) ==
      some (.string, .optional)] := by decide +kernel

/-! ## firm_core/src/graph/mod.rs -/

/-- The two entities of the first tests. -/
def megacorp : Entity := entityOf "megacorp" "organization" [("name", aText "MegaCorp Inc.")]
/-- A person with an employer. -/
def johnDoe : Entity :=
  entityOf "john_doe" "person" [("name", aText "John Doe"), ("employer", anEntityRef "megacorp")]
/-- A person. -/
def personOf (id name : String) : Entity := entityOf id "person" [("name", aText name)]

/- test_build_graph_iteratively, test_build_graph_bulk -/
example :
    let g₁ := ((Graph.empty.addEntity megacorp).1.addEntity johnDoe).1.build
    let g₂ := (graphOf [megacorp, johnDoe]).build
    checks [(g₁.idMap.lookup (named "megacorp")).isSome, (g₁.idMap.lookup (named "john_doe")).isSome,
      g₁.edges.length == 1, (g₂.idMap.lookup (named "megacorp")).isSome,
      (g₂.idMap.lookup (named "john_doe")).isSome, g₂.edges.length == 1] := by decide +kernel
/- test_add_duplicate_entity_returns_error -/
example :
    let r₁ := Graph.empty.addEntity (personOf "duplicate_id" "First Entity")
    let r₂ := r₁.1.addEntity (entityOf "duplicate_id" "organization" [("name", aText "Second Entity")])
    checks [fine r₁.2, refuses r₂.2 (.entityAlreadyExists "duplicate_id".toList),
      r₂.1.idMap.length == 1, r₂.1.nodes.length == 1] := by decide +kernel
/- test_add_entities_stops_on_duplicate -/
example :
    let r := (Graph.empty.addEntity (personOf "first" "First")).1.addEntities
      [personOf "second" "Second", entityOf "first" "organization" [("name", aText "Duplicate")],
        personOf "third" "Third"]
    checks [!fine r.2, r.1.idMap.length == 2, (r.1.idMap.lookup (named "first")).isSome,
      (r.1.idMap.lookup (named "second")).isSome, (r.1.idMap.lookup (named "third")).isNone] := by
  decide +kernel
/- test_list_field_references -/
example :
    let g := (graphOf [
      entityOf "john" "person" [("name", aText "John Doe"), ("email", aText "john@example.com")],
      entityOf "jane" "person" [("name", aText "Jane Smith"), ("email", aText "jane@example.com")],
      entityOf "campaign1" "organization" [("name", aText "Newsletter Campaign"),
        ("recipient_emails", .list [aFieldRef "john" "email", aFieldRef "jane" "email"])]]).build
    checks [g.edges.length == 2, g.nodes.length == 3] := by decide +kernel

/-! ## firm_core/src/graph/access.rs -/

/- test_get_entity_by_id -/
example :
    let g := graphOf [megacorp, personOf "john_doe" "John Doe"]
    checks [(g.getEntity (named "megacorp")).map (·.id) == some "megacorp".toList,
      (g.getEntity (named "john_doe")).map (·.id) == some "john_doe".toList,
      (g.getEntity (named "non_existing")).isNone] := by decide +kernel
/- test_resolve_entity_reference_from_graph (also the `_convenience` test) -/
example :
    let g := graphOf [megacorp]
    checks [resolves (g.resolveEntityReference (anEntityRef "megacorp")) megacorp,
      refuses (g.resolveEntityReference (anEntityRef "non_existing"))
        (.entityNotFound "non_existing".toList),
      refuses (g.resolveEntityReference (aText "not a reference")) .notAnEntityReference,
      refuses (g.resolveEntityReference (.boolean true)) .notAnEntityReference] := by decide +kernel
/- test_resolve_field_reference_simple (also the `_convenience` test) -/
example :
    let g := (graphOf [entityOf "test_entity" "person" [("name", aText "John Doe"),
      ("name_ref", aFieldRef "test_entity" "name")]]).build
    checks [resolves (g.resolveFieldReference (aFieldRef "test_entity" "name_ref")) (aText "John Doe"),
      !fine (g.resolveFieldReference (aText "not a reference"))] := by decide +kernel
/- test_resolve_field_reference_chain -/
example :
    let g := (graphOf [entityOf "test_entity" "person" [("name", aText "John Doe"),
      ("name_ref1", aFieldRef "test_entity" "name"),
      ("name_ref2", aFieldRef "test_entity" "name_ref1")]]).build
    checks [resolves (g.resolveFieldReference (aFieldRef "test_entity" "name_ref2"))
      (aText "John Doe")] := by decide +kernel
/- test_resolve_field_reference_cycle_detection -/
example :
    let g := (graphOf [entityOf "test_entity" "person" [("ref1", aFieldRef "test_entity" "ref2"),
      ("ref2", aFieldRef "test_entity" "ref1")]]).build
    checks [refuses (g.resolveFieldReference (aFieldRef "test_entity" "ref1")) .cyclicReference] := by
  decide +kernel
/- test_resolve_field_reference_max_depth -/
example :
    let g := (graphOf [entityOf "test_entity" "person" [("final", aText "Final Value"),
      ("ref0", aFieldRef "test_entity" "ref1"), ("ref1", aFieldRef "test_entity" "ref2"),
      ("ref2", aFieldRef "test_entity" "ref3"), ("ref3", aFieldRef "test_entity" "ref4"),
      ("ref4", aFieldRef "test_entity" "ref5"), ("ref5", aFieldRef "test_entity" "ref6"),
      ("ref6", aFieldRef "test_entity" "ref7"), ("ref7", aFieldRef "test_entity" "ref8"),
      ("ref8", aFieldRef "test_entity" "ref9"), ("ref9", aFieldRef "test_entity" "ref10"),
      ("ref10", aFieldRef "test_entity" "ref11"), ("ref11", aFieldRef "test_entity" "ref12"),
      ("ref12", aFieldRef "test_entity" "ref13"), ("ref13", aFieldRef "test_entity" "ref14"),
      ("ref14", aFieldRef "test_entity" "final")]]).build
    checks [refuses (g.resolveFieldReference (aFieldRef "test_entity" "ref0")) .maxDepthExceeded] := by
  decide +kernel
/- test_resolve_field_reference_entity_not_found, test_resolve_field_reference_field_not_found,
test_resolve_field_reference_not_a_reference -/
example :
    let g := graphOf [entityOf "test_entity" "person" [("existing_field", aText "value")]]
    checks [refuses (Graph.empty.resolveFieldReference (aFieldRef "missing_entity" "field"))
        (.entityNotFound "missing_entity".toList),
      refuses (g.resolveFieldReference (aFieldRef "test_entity" "missing_field"))
        (.fieldNotFound "test_entity".toList "missing_field".toList),
      refuses (Graph.empty.resolveFieldReference (aText "not a reference")) .notAFieldReference,
      refuses (Graph.empty.resolveFieldReference (.boolean true)) .notAFieldReference,
      refuses (Graph.empty.resolveFieldReference (anEntityRef "entity")) .notAFieldReference] := by
  decide +kernel
/- test_resolve_field_reference_graph_not_built -/
example :
    let g := graphOf [
      entityOf "entity1" "person" [("name", aText "Entity 1"), ("ref_to_2", aFieldRef "entity2" "value")],
      entityOf "entity2" "person" [("value", aText "Entity 2 Value")]]
    checks [refuses (g.resolveFieldReference (aFieldRef "entity1" "ref_to_2")) .graphNotBuilt] := by
  decide +kernel
/- test_list_by_type -/
example :
    let g := graphOf [megacorp, entityOf "techcorp" "organization" [("name", aText "TechCorp Ltd.")],
      personOf "john_doe" "John Doe", personOf "jane_smith" "Jane Smith"]
    checks [sameIds ((g.listByType (named "organization")).map (·.id)) ["megacorp", "techcorp"],
      sameIds ((g.listByType (named "person")).map (·.id)) ["john_doe", "jane_smith"],
      (g.listByType (named "missing_project")).isEmpty] := by decide +kernel
/- test_get_related -/
example :
    let g := (graphOf [megacorp, johnDoe, entityOf "jane_smith" "person"
      [("name", aText "Jane Smith"), ("employer", anEntityRef "megacorp")]]).build
    checks [(idsOf (g.getRelated (named "megacorp") none)).any
        (sameIds · ["john_doe", "jane_smith"]),
      (idsOf (g.getRelated (named "megacorp") (some .incoming))).map (·.length) == some 2,
      idsOf (g.getRelated (named "john_doe") (some .outgoing)) == some ["megacorp".toList],
      (g.getRelated (named "non_existing") none).isNone] := by decide +kernel

/-! ## firm_core/src/graph/query/related.rs -/

/-- A runtime that enumerates hash containers in order of insertion. -/
def projectRt : Runtime where
  order _ l := l
  order_perm _ l := List.Perm.refl l
  sort le l := some (stableSort le l)
  sort_perm le l l' h := by cases h; exact stableSort_perm le l
  sort_stable _ _ _ _ := rfl

/-- person ← task ← project. -/
def linear : Graph := (graphOf [personOf "person1" "John Doe",
  entityOf "task1" "task" [("title", aText "Task 1"), ("assignee", anEntityRef "person1")],
  entityOf "project1" "project" [("name", aText "Project 1"), ("task", anEntityRef "task1")]]).build
/-- Two persons, two tasks and a project. -/
def braided : Graph := (graphOf [personOf "person1" "John Doe", personOf "person2" "Jane Smith",
  entityOf "task1" "task" [("title", aText "Task 1"), ("assignee", anEntityRef "person1")],
  entityOf "task2" "task" [("title", aText "Task 2"), ("assignee", anEntityRef "person1"),
    ("reviewer", anEntityRef "person2")],
  entityOf "project1" "project" [("name", aText "Project 1"), ("task1", anEntityRef "task1"),
    ("task2", anEntityRef "task2")]]).build
/-- `get_related_entities` from the entities with these ids, as ids. -/
def around (g : Graph) (starts : List String) (n : Nat) (t : Option String) : List Str :=
  (getRelatedEntities projectRt 0 g (starts.filterMap fun s => g.getEntity (named s)) n
    (t.map named)).map (·.id)

/- test_related_zero_degrees … test_related_with_type_filter_no_matches -/
example : checks [sameIds (around linear ["person1"] 0 none) ["person1"],
    sameIds (around linear ["person1"] 1 none) ["person1", "task1"],
    sameIds (around linear ["person1"] 2 none) ["person1", "task1", "project1"],
    sameIds (around linear ["person1"] 2 (some "task")) ["task1"],
    sameIds (around linear ["person1"] 2 (some "organization")) []] := by decide +kernel
/- test_related_complex_graph, test_related_multiple_starting_entities -/
example : checks [
    sameIds (around braided ["person1"] 2 none) ["person1", "person2", "task1", "task2", "project1"],
    sameIds (around braided ["person1", "person2"] 1 none) ["person1", "person2", "task1", "task2"]] := by
  decide +kernel

/-! ## firm_core/src/graph/query/types.rs -/

/-- The graph of the query tests. -/
def office : Graph := (graphOf [
  entityOf "person1" "person" [("name", aText "Alice"), ("age", .integer 30)],
  entityOf "person2" "person" [("name", aText "Bob"), ("age", .integer 25)],
  entityOf "task1" "task" [("title", aText "Important Task"), ("is_completed", .boolean true)],
  entityOf "task2" "task" [("title", aText "Pending Task"), ("is_completed", .boolean false)]]).build
/-- The ids a query finds. -/
def found (q : Query) : Option (List Str) :=
  match q.execute projectEnv projectRt office with
  | .ok (.entities es) => some (es.map (·.id))
  | _ => none
/-- The aggregate a query computes. -/
def computed (q : Query) : Option AggregationResult :=
  match q.execute projectEnv projectRt office with
  | .ok (.aggregation r) => some r
  | _ => none
/-- One condition. -/
def oneWhere (f : String) (op : FilterOperator) (v : FilterValue) : QueryOperation :=
  .where (.single ⟨.regular (named f), op, v⟩)

/- test_query_from_type … test_query_with_where_and_limit,
test_query_without_aggregation_returns_entities -/
example : checks [(found ⟨.type (named "person"), [], none⟩).any (sameIds · ["person1", "person2"]),
    (found ⟨.all, [], none⟩).map (·.length) == some 4,
    found ⟨.type (named "task"), [oneWhere "is_completed" .equal (.boolean false)], none⟩ ==
      some [named "task2"],
    (found ⟨.all, [.limit 2], none⟩).map (·.length) == some 2,
    (found ⟨.type (named "person"), [oneWhere "age" .greaterThan (.integer 20), .limit 1],
      none⟩).map (·.length) == some 1] := by decide +kernel
/- test_query_unknown_entity_type -/
example : (match (⟨.type (named "tasks"), [], none⟩ : Query).execute projectEnv projectRt office with
    | .error (.unknownEntityType r a) => r == "tasks".toList && a.contains "task".toList &&
        a.contains "person".toList
    | _ => false) = true := by decide +kernel
/- test_query_with_count_aggregation, test_query_with_aggregation_after_where -/
example : checks [computed ⟨.type (named "person"), [], some (.count none)⟩ == some (.count 2),
    computed ⟨.type (named "task"), [oneWhere "is_completed" .equal (.boolean false)],
      some (.count none)⟩ == some (.count 1)] := by decide +kernel

/-! ## firm_core/src/graph/query/aggregation/select.rs -/

/-- The persons of the tests. -/
def persons : List Entity := [entityOf "p1" "person" [("name", aText "Alice"), ("age", .integer 30)],
  entityOf "p2" "person" [("name", aText "Bob")]]

/- test_select_single_field … test_select_empty_entities -/
example : checks [
    executeSelect [.regular (named "name")] persons ==
      .select ["name".toList] [[some (aText "Alice")], [some (aText "Bob")]],
    executeSelect [.regular (named "name"), .regular (named "age")] persons ==
      .select ["name".toList, "age".toList]
        [[some (aText "Alice"), some (.integer 30)], [some (aText "Bob"), none]],
    executeSelect [.metadata .id] persons ==
      .select ["@id".toList] [[some (aText "p_1")], [some (aText "p_2")]],
    executeSelect [.metadata .type] persons ==
      .select ["@type".toList] [[some (aText "person")], [some (aText "person")]],
    executeSelect [.regular (named "nonexistent")] persons ==
      .select ["nonexistent".toList] [[none], [none]],
    executeSelect [.regular (named "name")] [] == .select ["name".toList] []] := by decide +kernel

end Firm.Conformance
