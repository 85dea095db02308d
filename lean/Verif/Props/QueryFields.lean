import Verif.Props.QueryLiterals
import Verif.Props.Filter
import Verif.Props.Query

/-!
# Properties of the names in queries (C49, C78–C80)
-/

namespace Firm
open Spec

/-! ## C49: fields under their written name -/

theorem getField_split {pre post : List (FieldId × FieldValue)} {f : FieldId} {v : FieldValue}
    {e : Entity} (h : e.fields = pre ++ (f, v) :: post) (hpre : ∀ p ∈ pre, p.1 ≠ f) :
    e.getField f = some v := by
  unfold Entity.getField
  rw [h, List.find?_append, List.find?_eq_none.mpr (by simpa using hpre)]
  simp

theorem collectResults_split {α β ε : Type} {g : α → Except ε β} : ∀ {pre post : List α} {a : α}
    {bs : List β}, collectResults g (pre ++ a :: post) = .ok bs →
    ∃ bpre b bpost, bs = bpre ++ b :: bpost ∧ g a = .ok b ∧
      ∀ x ∈ bpre, ∃ y ∈ pre, g y = .ok x
  | [], post, a, bs, h => by
    simp only [List.nil_append, collectResults] at h
    split at h
    · cases h
    · next b hb =>
      split at h
      · cases h
      · cases h
        exact ⟨[], b, _, rfl, hb, by simp⟩
  | p :: pre, post, a, bs, h => by
    simp only [List.cons_append, collectResults] at h
    split at h
    · cases h
    · next b hb =>
      split at h
      · cases h
      · next bs' hbs =>
        cases h
        obtain ⟨bpre, b', bpost, rfl, h1, h2⟩ := collectResults_split hbs
        refine ⟨b :: bpre, b', bpost, rfl, h1, ?_⟩
        intro x hx
        rcases List.mem_cons.mp hx with rfl | hx
        · exact ⟨p, by simp, hb⟩
        · obtain ⟨y, hy, hg⟩ := h2 x hx
          exact ⟨y, by simp [hy], hg⟩

/-- C49: if an entity block has a field written `f` in snake case (the first of that name), then a
query condition on `f` is evaluated on that field's value. Missing for the full claim: other
spellings (`C49_ignored`, `C49_camel`). -/
theorem C49_field_partial {L : Lang} (hL : RegularCase L.cases) {source : Str} {n nf : Node}
    {e : Entity} {pre post : List Node} {f : Str} {v : ParsedValue}
    (he : toEntity L source n = .ok e) (hn : entityFields n = pre ++ nf :: post)
    (hf : fieldName nf = some f) (hfirst : ∀ m ∈ pre, fieldName m ≠ some f)
    (hv : fieldValue L source nf = .ok v) (hs : IsSnake L.cases f) (env : Env)
    (op : FilterOperator) (w : ParsedQueryValue) :
    (convertCond L.cases ⟨.regular f, op, w⟩).matches env e =
      compareField env (toFieldValue L.cases v) op (convertValue w) := by
  have hget : e.getField f = some (toFieldValue L.cases v) := by
    unfold toEntity at he
    split at he
    · cases he
    split at he
    · cases he
    split at he
    · cases he
    next fs hfs =>
    rw [hn] at hfs
    obtain ⟨bpre, b, bpost, hbs, h1, h2⟩ := collectResults_split hfs
    have hb : b = (f, toFieldValue L.cases v) := by
      unfold toField at h1
      rw [hf] at h1
      simp only [hv] at h1
      cases h1; rfl
    subst hb
    cases he
    refine getField_split hbs ?_
    intro p hp
    obtain ⟨y, hy, hg⟩ := h2 p hp
    unfold toField at hg
    split at hg
    · cases hg
    · next f' hf' =>
      split at hg
      · cases hg
        intro h
        exact hfirst y hy (by rw [hf']; exact congrArg some h)
      · cases hg
      · cases hg
  simp only [convertCond, FilterCondition.matches, convertField, (C47_unchanged hL f).mpr hs,
    FilterCondition.matchesField, hget]

/-- C49, the other spellings: a query condition on a name that is not snake case never looks at the
fields written that way; entities that differ only in those fields are not told apart. -/
theorem C49_ignored {T : CaseTable} (hT : RegularCase T) {f : Str} (hs : ¬ IsSnake T f) (env : Env)
    (op : FilterOperator) (w : ParsedQueryValue) {e e' : Entity}
    (h : e.fields.filter (fun p => p.1 ≠ f) = e'.fields.filter (fun p => p.1 ≠ f)) :
    (convertCond T ⟨.regular f, op, w⟩).matches env e =
      (convertCond T ⟨.regular f, op, w⟩).matches env e' := by
  have hne : T.snake f ≠ f := fun h => hs ((C47_unchanged hT f).mp h)
  have hg : ∀ e : Entity, e.getField (T.snake f) =
      ((e.fields.filter (fun p => p.1 ≠ f)).find? (fun p => p.1 == T.snake f)).map (·.2) := by
    intro e
    unfold Entity.getField
    congr 1
    induction e.fields with
    | nil => rfl
    | cons p ps ih =>
      rw [List.filter_cons]
      by_cases hp : p.1 = f
      · have h1 : (p.1 == T.snake f) = false := by
          rw [beq_eq_false_iff_ne, hp]; exact fun h => hne h.symm
        have h2 : decide (p.1 ≠ f) = false := by simp [hp]
        rw [List.find?_cons, h1, h2]
        simpa using ih
      · have h2 : decide (p.1 ≠ f) = true := by simp [hp]
        rw [h2, if_pos rfl, List.find?_cons, List.find?_cons, ih]
  simp only [convertCond, FilterCondition.matches, convertField, FilterCondition.matchesField, hg, h]

/-- C49, from the text of the query to its result: an entity whose block has a field written `f` is
in the result of `from t | where f op w` exactly if its value passes the comparison. Missing as
above. -/
theorem C49_found_partial {L : Lang} (hL : RegularCase L.cases) {source : Str} {n nf : Node}
    {e : Entity} {pre post : List Node} {f : Str} {v : ParsedValue}
    (he : toEntity L source n = .ok e) (hn : entityFields n = pre ++ nf :: post)
    (hf : fieldName nf = some f) (hfirst : ∀ m ∈ pre, fieldName m ≠ some f)
    (hv : fieldValue L source nf = .ok v) (hs : IsSnake L.cases f) (hfi : IsIdent f)
    (hts : IsSnake L.cases e.entityType) (hti : IsIdent e.entityType)
    {op : FilterOperator} {w : QValue} {w' : ParsedQueryValue} (hw : ValidValue w)
    (hw' : readQValue L w = .ok w') {ops : List GOp} (hin : e ∈ accepted ops) (rt : Runtime)
    {r : QueryResult}
    (h : runQuery L rt (Graph.run ops) (showQuery (oneCondition e.entityType (.regular f) op w)) = .ok r) :
    ∃ es, r = .entities es ∧
      (e ∈ es ↔ compareField L.env (toFieldValue L.cases v) op (convertValue w') = .ok true) := by
  have hcond := C49_field_partial hL he hn hf hfirst hv hs L.env op w'
  have hsnake : L.cases.snake e.entityType = e.entityType := (C47_unchanged hL _).mpr hts
  have hfrom := (C34_from_type ops L.env rt e.entityType).1 ⟨e, hin, rfl⟩
  unfold runQuery at h
  rw [oneCondition_parse L hti (f := .regular f) hfi hw hw'] at h
  simp only at h
  generalize hc : convertCond L.cases ⟨.regular f, op, w'⟩ = c at hcond
  have hq : convertQuery L.cases ⟨.type e.entityType, [.where [⟨.regular f, op, w'⟩] .and], none⟩ =
      ⟨.type e.entityType, [.where ⟨[c], .and⟩], none⟩ := by
    simp [convertQuery, convertOp, selectorType, hc, hsnake]
  rw [hq] at h
  have hsel : selectFrom rt (Graph.run ops) (.type e.entityType) =
      .ok ((accepted ops).filter fun x => x.entityType = e.entityType) := by
    unfold Query.execute at hfrom
    split at hfrom
    · cases hfrom
    · next es hes =>
      rw [hes]
      simp only [applyOperations] at hfrom
      cases hfrom; rfl
  unfold Query.execute at h
  rw [hsel] at h
  simp only [applyOperations, applyOperation] at h
  cases hfe : filterEntities L.env ⟨[c], .and⟩
      ((accepted ops).filter fun x => x.entityType = e.entityType) with
  | error err => rw [hfe] at h; cases h
  | ok es =>
    rw [hfe] at h
    cases h
    refine ⟨es, rfl, ?_⟩
    obtain ⟨_, rfl⟩ := (filterEntities_ok _ _ _ _).1 hfe
    have hm : CompoundCondition.matches L.env ⟨[c], .and⟩ e = .ok true ↔
        c.matches L.env e = .ok true := by
      simp only [CompoundCondition.matches, collectResults]
      cases c.matches L.env e <;> simp
    rw [← hcond, ← hm]
    simp [hin]

/-- An entity block with a camel case field. -/
def exCamelNode : Node := exEntityNode "task" "a" [exFieldNode "dueDate" "string" "\"x\""]

/-- The entity it stands for. -/
def exCamelEntity : Entity :=
  ⟨"task.a".toList, "task".toList, [("dueDate".toList, .string "x".toList)]⟩

/-- C49 is false: a task with the field `dueDate = "x"` is not found by `dueDate == "x"`. -/
theorem C49_camel :
    toEntity exLang [] exCamelNode = .ok exCamelEntity ∧
    runQuery exLang exRt (Graph.run [.add exCamelEntity, .build])
      "from task | where dueDate == \"x\"".toList = .ok (.entities []) ∧
    runQuery exLang exRt (Graph.run [.add exCamelEntity, .build])
      "from task".toList = .ok (.entities [exCamelEntity]) := by
  refine ⟨by rfl, ?_, ?_⟩ <;> decide +kernel

/-- An entity block with a snake case field. -/
def exSnakeNode : Node := exEntityNode "person" "bob" [exFieldNode "name" "string" "\"Bob\""]

/-- The entity it stands for. -/
def exSnakeEntity : Entity :=
  ⟨"person.bob".toList, "person".toList, [("name".toList, .string "Bob".toList)]⟩

example (env : Env) (op : FilterOperator) (w : ParsedQueryValue) :
    (convertCond asciiTable ⟨.regular "name".toList, op, w⟩).matches env exSnakeEntity =
      compareField env (.string "Bob".toList) op (convertValue w) :=
  C49_field_partial (L := exLang) asciiTable_regular (source := []) (n := exSnakeNode)
    (nf := exFieldNode "name" "string" "\"Bob\"") (pre := []) (post := []) (f := "name".toList)
    (v := .string "Bob".toList) rfl rfl rfl (by simp) rfl
    ((C47_unchanged asciiTable_regular _).mp (by decide)) env op w

example : ∃ es, runQuery exLang exRt (Graph.run [.add exSnakeEntity, .build])
      (showQuery (oneCondition "person".toList (.regular "name".toList) .contains (.string "ob".toList)))
        = .ok (.entities es) ∧ exSnakeEntity ∈ es := by
  refine ⟨[exSnakeEntity], ?_, by simp⟩
  decide +kernel

example : runQuery exLang exRt (Graph.run [.add exAlice, .add exBob, .build])
    "from person | where name == \"Bob\"".toList = .ok (.entities [exBob]) := by decide +kernel

/-! ## C78: selecting by type -/

/-- C78, exactly: `from t` finds the entities of the type `t` brought into snake case, and says which
types there are if there are none of that type. -/
theorem C78_from (L : Lang) (rt : Runtime) (ops : List GOp) {t : Str} (ht : IsIdent t) :
    ((∃ e ∈ accepted ops, e.entityType = L.cases.snake t) →
      runQuery L rt (Graph.run ops) (showQuery ⟨.type t, [], none⟩) =
        .ok (.entities ((accepted ops).filter fun e => e.entityType = L.cases.snake t))) ∧
    ((¬ ∃ e ∈ accepted ops, e.entityType = L.cases.snake t) → ∃ known,
      runQuery L rt (Graph.run ops) (showQuery ⟨.type t, [], none⟩) =
        .error (.execution (.unknownEntityType (L.cases.snake t) known)) ∧
      ∀ t', t' ∈ known ↔ ∃ e ∈ accepted ops, e.entityType = t') := by
  have hvalid : ValidTree ⟨.type t, [], none⟩ :=
    ⟨ht, fun o h => (by cases h), fun a h => (by cases h)⟩
  have hp : parseQuery L (showQuery ⟨.type t, [], none⟩) = .ok ⟨.type t, [], none⟩ := by
    unfold parseQuery
    rw [qQuery_show hvalid]
    rfl
  have hr : runQuery L rt (Graph.run ops) (showQuery ⟨.type t, [], none⟩) =
      match Query.execute L.env rt (Graph.run ops) ⟨.type (L.cases.snake t), [], none⟩ with
      | .error e => .error (.execution e)
      | .ok r => .ok r := by
    unfold runQuery
    rw [hp]
    rfl
  obtain ⟨h1, h2⟩ := C34_from_type ops L.env rt (L.cases.snake t)
  rw [hr]
  constructor
  · intro h
    rw [h1 h]
  · intro h
    obtain ⟨known, hk, _, hm⟩ := h2 h
    exact ⟨known, by rw [hk], hm⟩

/-- C78: an entity is found by `from` with the type its block is written with. Missing for the full
claim: types that are not snake case (`C78_camel`). -/
theorem C78_written_partial {L : Lang} (hL : RegularCase L.cases) {source : Str} {n : Node}
    {e : Entity} {t : Str} (he : toEntity L source n = .ok e) (ht : entityTypeOf n = some t)
    (hs : IsSnake L.cases t) (hti : IsIdent t) {ops : List GOp} (hin : e ∈ accepted ops)
    (rt : Runtime) :
    ∃ es, runQuery L rt (Graph.run ops) (showQuery ⟨.type t, [], none⟩) = .ok (.entities es) ∧
      e ∈ es := by
  have hty : e.entityType = t := by
    unfold toEntity at he
    rw [ht] at he
    simp only at he
    split at he
    · cases he
    split at he
    · cases he
    · cases he; rfl
  have hsnake := (C47_unchanged hL t).mpr hs
  refine ⟨_, (C78_from L rt ops hti).1 ⟨e, hin, by rw [hsnake, hty]⟩, ?_⟩
  simp [hin, hsnake, hty]

/-- An entity block with a camel case type. -/
def exCamelType : Node := exEntityNode "lineItem" "a" []

/-- C78 is false: an entity written `lineItem a {}` is not found by `from lineItem`. -/
theorem C78_camel :
    toEntity exLang [] exCamelType = .ok ⟨"lineitem.a".toList, "lineItem".toList, []⟩ ∧
    runQuery exLang exRt (Graph.run [.add ⟨"lineitem.a".toList, "lineItem".toList, []⟩, .build])
      "from lineItem".toList =
        .error (.execution (.unknownEntityType "line_item".toList ["lineItem".toList])) := by
  constructor <;> decide +kernel

example : runQuery exLang exRt (Graph.run [.add exAlice, .add exTask, .build])
    "from person".toList = .ok (.entities [exAlice]) := by decide +kernel

/-! ## C79: combinators -/

theorem collectResults_get {α β ε : Type} {g : α → Except ε β} : ∀ {as : List α} {bs : List β},
    collectResults g as = .ok bs → ∀ i : Nat, (as[i]?).map g = (bs[i]?).map Except.ok
  | [], bs, h, i => by cases h; simp
  | a :: as, bs, h, i => by
    simp only [collectResults] at h
    split at h
    · cases h
    · next b hb =>
      split at h
      · cases h
      · next bs' hbs =>
        cases h
        cases i with
        | zero => simp [hb]
        | succ i => simpa using collectResults_get hbs i

theorem collectResults_length {α β ε : Type} {g : α → Except ε β} {as : List α} {bs : List β}
    (h : collectResults g as = .ok bs) : as.length = bs.length := by
  have := (collectResults_ok g as bs).mp h
  have := congrArg List.length this
  simpa using this

theorem readCombinator_ok {ks : List Combinator} {k : Combinator} (h : readCombinator ks = .ok k) :
    ∀ x ∈ ks, x = k := by
  cases ks with
  | nil => simp
  | cons c cs =>
    simp only [readCombinator] at h
    split at h
    · next hall =>
      cases h
      intro x hx
      rcases List.mem_cons.mp hx with rfl | hx
      · rfl
      · simpa using List.all_eq_true.mp hall x hx
    · cases h

/-- C79: in a query that is accepted, all combinators of a `where` clause are the same, all its
conditions are kept in order, and the clause combines them with that combinator. -/
theorem C79_same {L : Lang} {s : Str} {p : ParsedQuery} (h : parseQuery L s = .ok p) :
    ∃ q, qQuery s = some q ∧ q.operations.length = p.operations.length ∧
      ∀ (i : Nat) (c : QCond) (more : List (Combinator × QCond)),
        q.operations[i]? = some (.where c more) →
        ∃ cs k, p.operations[i]? = some (.where cs k) ∧ (∀ m ∈ more, m.1 = k) ∧
          cs.map (fun x => (x.field, x.op, Except.ok x.value)) =
            (c :: more.map (·.2)).map fun x => (x.field, x.op, readQValue L x.value) := by
  unfold parseQuery at h
  split at h
  · cases h
  · next q hq =>
    split at h
    · cases h
    · next ops hops =>
      cases h
      have hget := collectResults_get hops
      refine ⟨q, hq, ?_, ?_⟩
      · exact collectResults_length hops
      · intro i c more hi
        have h1 := hget i
        rw [hi] at h1
        simp only [Option.map_some] at h1
        cases ho : ops[i]? with
        | none => rw [ho] at h1; cases h1
        | some o =>
          rw [ho] at h1
          have h2 : readOp L (.where c more) = .ok o := Option.some.inj h1
          simp only [readOp] at h2
          split at h2
          · cases h2
          · next cs hcs =>
            split at h2
            · cases h2
            · next k hk =>
              cases h2
              refine ⟨cs, k, rfl, ?_, ?_⟩
              · intro m hm
                exact readCombinator_ok hk _ (List.mem_map_of_mem hm)
              · have hg2 := collectResults_get hcs
                apply List.ext_getElem?
                intro j
                have hj := hg2 j
                simp only [List.getElem?_map]
                cases ha : (c :: more.map (·.2))[j]? with
                | none =>
                  rw [ha] at hj
                  cases hb : cs[j]? with
                  | none => rfl
                  | some b => rw [hb] at hj; cases hj
                | some a =>
                  rw [ha] at hj
                  cases hb : cs[j]? with
                  | none => rw [hb] at hj; cases hj
                  | some b =>
                    rw [hb] at hj
                    have : readCond L a = .ok b := Option.some.inj hj
                    unfold readCond at this
                    split at this
                    · next v hv => cases this; simp [hv]
                    · cases this

/-- C79: a clause whose combinators are all the same is accepted, provided its values can be read. -/
theorem C79_accepted (L : Lang) {c : QCond} {more : List (Combinator × QCond)} {k : Combinator}
    {cs : List ParsedCondition} (hk : ∀ m ∈ more, m.1 = k) (hne : more ≠ [])
    (hr : collectResults (readCond L) (c :: more.map (·.2)) = .ok cs) :
    readOp L (.where c more) = .ok (.where cs k) := by
  cases more with
  | nil => exact absurd rfl hne
  | cons m ms =>
    have h1 : m.1 = k := hk m (by simp)
    have h2 : (ms.map (·.1)).all (· == m.1) = true := by
      simp only [List.all_map, List.all_eq_true, Function.comp]
      intro x hx
      simp [hk x (by simp [hx]), h1]
    have h3 : readCombinator ((m :: ms).map (·.1)) = .ok m.1 := by
      rw [List.map_cons, readCombinator, if_pos h2]
    rw [readOp, hr]
    simp only [h3, h1]

/-- C79: combinators may be written in any letter case. -/
theorem C79_letter_case {w r : Str} :
    (w.map lowerAscii = "and".toList → qCombinator (w ++ r) = some (.and, r)) ∧
    (w.map lowerAscii = "or".toList → qCombinator (w ++ r) = some (.or, r)) := by
  have hlit : ∀ {k : Str}, w.map lowerAscii = k → qLitI k (w ++ r) = some r := by
    intro k h
    have hl : k.length = w.length := by rw [← h]; simp
    unfold qLitI
    rw [if_pos]
    · rw [hl, List.drop_left]
    · rw [hl, List.take_left, h]
  constructor
  · intro h
    unfold qCombinator
    rw [hlit h]
  · intro h
    unfold qCombinator
    have hn : qLitI "and".toList (w ++ r) = none := by
      cases hx : qLitI "and".toList (w ++ r) with
      | none => rfl
      | some y =>
        have h1 := (qLitI_isSome "and".toList (w ++ r)).mp (by rw [hx]; rfl)
        cases w with
        | nil => cases h
        | cons c w =>
          have e1 : lowerAscii c = 'o' := by simpa using congrArg List.head? h
          have e2 : lowerAscii c = 'a' := by simpa using congrArg List.head? h1
          rw [e1] at e2; cases e2
    rw [hn, hlit h]

example : ∃ e, parseQuery exLang "from a | where b == true and c == true or d == true".toList =
    .error e := by
  refine ⟨.syntaxError, ?_⟩
  have : (match parseQuery exLang "from a | where b == true and c == true or d == true".toList with
    | .error .syntaxError => true
    | _ => false) = true := by decide +kernel
  revert this
  cases parseQuery exLang "from a | where b == true and c == true or d == true".toList with
  | ok p => intro h; cases h
  | error e => cases e <;> simp
example : (match parseQuery exLang "from a | where b == true AND c == true aNd d == true".toList with
    | .ok ⟨_, [.where cs .and], none⟩ => decide (cs.length = 3)
    | _ => false) = true := by decide +kernel

/-! ## C80: unknown clauses -/

/-- The words clauses start with. -/
def clauseWords : List Str :=
  ["where".toList, "related".toList, "order".toList, "limit".toList, "select".toList,
    "count".toList, "sum".toList, "average".toList, "median".toList]

theorem qLit_not_prefix {k s : Str} (h : ¬ k <+: s) : qLit k s = none := by
  cases hx : qLit k s with
  | none => rfl
  | some r => exact absurd ⟨r, (qLit_eq hx).symm⟩ h

theorem no_clause {s : Str} (h : ∀ k ∈ clauseWords, ¬ k <+: s) (n : Nat) :
    qOperation n s = none ∧ qAggregation s = none := by
  have hk : ∀ k ∈ clauseWords, qLit k s = none := fun k hk => qLit_not_prefix (h k hk)
  constructor
  · unfold qOperation qWhere qRelated qOrder qLimit
    rw [hk "where".toList (by decide), hk "related".toList (by decide),
      hk "order".toList (by decide), hk "limit".toList (by decide)]
  · unfold qAggregation
    rw [qSelect_none (hk "select".toList (by decide)), qCountClause_none (hk "count".toList (by decide)),
      qOver_none (hk "sum".toList (by decide)), qOver_none (hk "average".toList (by decide)),
      qOver_none (hk "median".toList (by decide))]

/-- C80: a query with a clause that does not start with one of the nine words is rejected, whatever
comes before it and whatever the clause contains. Missing for the full claim: clauses that only
start with one of the words (`C80_glued`). -/
theorem C80_unknown_partial {q : QTree} (hq : ValidTree q) (hagg : q.aggregation = none) {r : Str}
    (hr : ∀ k ∈ clauseWords, ¬ k <+: r.dropWhile qWs) :
    qQuery (showQuery q ++ " |".toList ++ r) = none := by
  obtain ⟨sel, ops, agg⟩ := q
  simp only at hagg
  subst hagg
  obtain ⟨h1, h2, _⟩ := hq
  generalize hsh : (fun o : QOp => " | ".toList ++ showQOp o) = sh
  have hshe : ∀ o, sh o = ' ' :: '|' :: ' ' :: showQOp o := by intro o; rw [← hsh]; rfl
  generalize hrest : ' ' :: '|' :: r = rest
  have e : showQuery ⟨sel, ops, none⟩ ++ " |".toList ++ r =
      "from".toList ++ (' ' :: (showQSelector sel ++ (ops.flatMap sh ++ rest))) := by
    simp [showQuery, ← hsh, ← hrest, showQEnd]
  have hend : OpEnd rest := .inr ⟨r, hrest.symm⟩
  rw [e]
  generalize hN : ("from".toList ++ (' ' :: (showQSelector sel ++ (ops.flatMap sh ++ rest)))).length + 1 = N
  have hopen : OpEnd (ops.flatMap sh ++ rest) := by
    cases ops with
    | nil => exact hend
    | cons o os => exact .inr ⟨_, by rw [List.flatMap_cons, hshe]; rfl⟩
  have hlen : ∀ o ∈ ops, (showQOp o).length < N := by
    intro o ho
    have h4 := mem_length_flatMap (sh := sh) ho
    simp only [List.length_append, List.length_cons] at hN
    have h5 : (showQOp o).length ≤ (sh o).length := by
      rw [hshe]
      simp only [List.length_cons]
      omega
    omega
  have hnone := fun n => no_clause hr n
  have hskip : ∀ {α : Type} (p : Str → Option (α × Str)),
      qAfter '|' p (qSkip rest) = p (r.dropWhile qWs) := by
    intro α p
    rw [← hrest, qSkip_space, qSkip_of (by decide)]
    simp only [qAfter, if_true]
    rfl
  have hstop : qAfter '|' (qOperation N) (qSkip rest) = none := by
    rw [hskip]; exact (hnone N).1
  have hmany := qMany_show (p := qAfter '|' (qOperation N)) (sh := sh) (rest := rest) OpEnd
    hstop hend ops (fun o _ r => .inr ⟨_, by rw [hshe]; rfl⟩)
    (fun o ho r hr => by
      rw [hshe]
      show qAfter '|' (qOperation N) (qSkip (' ' :: '|' :: ' ' :: (showQOp o ++ r))) = _
      rw [qSkip_space, qSkip_of (by decide)]
      simp only [qAfter, if_true]
      rw [qSkip_space, qSkip_stops (op_stops r)]
      exact qOperation_show (h2 o ho) (hlen o ho) hr)
    (ops.flatMap sh ++ rest).length
    (by
      rw [List.length_append]
      exact Nat.le_trans (length_le_flatMap (fun m _ => by simp [hshe])) (Nat.le_add_right _ _))
  have hagg : qOpt (qAfter '|' qAggregation) rest = (none, rest) := by
    apply qOpt_none
    rw [hskip]; exact (hnone N).2
  unfold qQuery
  rw [hN]
  rw [qSkip_stops (s := "from".toList ++ _) (stops_cons (by decide)), qLit_append]
  simp only
  rw [qSkip_space, qSkip_stops (selector_stops h1 _), qSelector_show h1 (hopen.head (by decide))]
  simp only [hmany, hagg]
  rw [if_neg]
  rw [← hrest, qSkip_space, qSkip_of (by decide)]
  simp

/-- C80 is false: the unknown clause `countries` is accepted and counts the field `ries`; the word
`from` needs no blank after it either. -/
theorem C80_glued : (match qQuery "fromtask|countries".toList with
    | some ⟨.type t, [], some (.count (some (.regular f)))⟩ =>
      decide (t = "task".toList ∧ f = "ries".toList)
    | _ => false) = true := by decide +kernel

example : qQuery "from task | limit 5 | group by name".toList = none :=
  C80_unknown_partial (q := ⟨.type "task".toList, [.limit "5".toList], none⟩) (r := " group by name".toList)
    ⟨⟨'t', "ask".toList, rfl, by decide, by decide⟩, fun o h => (by
      simp only [List.mem_singleton] at h; subst h; exact showInt_number 5),
      fun a h => (by cases h)⟩ rfl (by decide)

end Firm
