import Verif.Props.EnumAsked
import Verif.Props.AddLine

/-!
# The examples of the documentation (C161)

The documentation and the reference that the server hands out show queries and commands. Here those about the built-in
types are run on every workspace in which these types have their built-in schemas.
-/

namespace Firm
open Spec

/-! ## Specification -/

/-- The built-in types in the examples. -/
def Spec.documentedTypes : List Str :=
  ["task".toList, "person".toList, "project".toList, "organization".toList, "opportunity".toList, "contact".toList]

/-- The queries of the documentation that ask for declared fields of built-in types, or for no field —
docs/src/reference/query-reference.md, docs/src/reference/cli-reference.md, docs/src/guide/querying.md,
docs/src/guide/relationships.md, docs/src/library/architecture.md, firm_mcp/src/tools/dsl_reference_content.rs:143-316. -/
def Spec.documentedQueries : List String :=
  ["from task",
   "from *",
   "from * | where @type == \"task\"",
   "from * | order @type",
   "from task | where is_completed == false",
   "from task | where assignee_ref == person.john_doe",
   "from task | where is_completed == false | count",
   "from task | where is_completed == false | select @id, name, due_date",
   "from task | where is_completed == false | order due_date | select @id, name, due_date",
   "from task | where is_completed == false | related project | order name | limit 5",
   "from task | select name, status, due_date",
   "from task | order due_date",
   "from task | order due_date desc",
   "from task | order due_date desc | limit 5",
   "from task | limit 10",
   "from person | select name",
   "from person | count email",
   "from person | where name == \"John\"",
   "from organization | related",
   "from organization | related contact",
   "from organization | related task",
   "from organization | related(2)",
   "from organization | related(2) task",
   "from organization | where name contains \"Acme\" | related project | related task",
   "from opportunity | where status == enum\"open\" or status == enum\"negotiation\" or status == enum\"proposal\"",
   "from opportunity | where value >= 10000.00 USD",
   "from opportunity | where value >= 10000.00 USD | order value desc",
   "from project | where status == \"active\" | related task",
   "from project | where status == \"in progress\" | related(2) task | where is_completed == false | where due_date > 2025-01-01 | order due_date | limit 10"]

/-- The queries of the documentation about types that are not built in. -/
def Spec.foreignQueries : List String :=
  ["from invoice",
   "from invoice | where status == \"draft\" or status == \"sent\"",
   "from invoice | where status == \"draft\" or status == \"sent\" | where amount > 1000",
   "from invoice | where status == \"sent\" | sum amount",
   "from line_item | sum quantity"]

/-- The schemas of the documented types have the built-in fields; they may have more. -/
def Spec.HasBuiltIn (L : Lang) (ss : List EntitySchema) : Prop :=
  ∀ s ∈ ss, s.entityType ∈ documentedTypes → ∃ s0 ∈ defaultSchemas L, s0.entityType = s.entityType ∧
    ∀ d ∈ s0.fields, ∃ d' ∈ s.fields, d'.1 = d.1 ∧ d'.2.fieldType = d.2.fieldType

/-- The schemas of the documented types have built-in fields only. -/
def Spec.OnlyBuiltIn (L : Lang) (ss : List EntitySchema) : Prop :=
  ∀ s ∈ ss, s.entityType ∈ documentedTypes → ∃ s0 ∈ defaultSchemas L, s0.entityType = s.entityType ∧
    ∀ d ∈ s.fields, d.1 ∈ s0.fields.map (·.1)

/-- The literals of the examples are read: the date and the amount. -/
structure Spec.ReadsLiterals (L : Lang) : Prop where
  date : (L.env.parseDate "2025-01-01".toList).isSome = true
  amount : (L.parseF64 "10000.00".toList).isSome = true

/-! ## A check of the text -/

/-- The name is the same in all case data. -/
def plainName (n : Str) : Bool := decide (asciiTable.snake n = n) && n.all plainChar

/-- The kind of a literal that every `Lang` reads in the same way. -/
def writtenKind : QValue → Option FilterKind
  | .string _ => some (FilterValue.string []).kind
  | .boolean _ => some (FilterValue.boolean true).kind
  | .currency t _ => if t = "10000.00".toList then some (FilterValue.currency .negZero []).kind else none
  | .dateTime t => if t = "2025-01-01".toList then some (FilterValue.dateTime []).kind else none
  | .reference _ => some (FilterValue.reference []).kind
  | .path _ => some (FilterValue.path []).kind
  | .enum _ => some (FilterValue.enum []).kind
  | _ => none

/-- The built-in schemas and one of a type that is not documented. -/
def builtInAndMore : List EntitySchema := ⟨"?".toList, []⟩ :: defaultSchemas exLang

/-- The condition fits. -/
def condFits (scope : Option Str) (c : QCond) : Bool :=
  match writtenKind c.value with
  | none => false
  | some k =>
    match c.field with
    | .metadata _ => Suits c.op k .string
    | .regular n => plainName n && Column builtInAndMore scope n (Suits c.op k)

/-- The selector is a documented type. -/
def selectorOk : QSelector → Bool
  | .type n => plainName n && documentedTypes.contains n
  | .wildcard => true

/-- The type of a selector. -/
def selectorScope : QSelector → Option Str
  | .type n => some n
  | .wildcard => none

/-- The operations and the aggregation fit. -/
def treeFits (agg : Option QAgg) : Option Str → List QOp → Bool
  | _, [] =>
    match agg with
    | none => true
    | some (.select _) => true
    | some (.count _) => true
    | _ => false
  | scope, .where c more :: ops =>
    condFits scope c && more.all (fun m => condFits scope m.2) &&
      (match readCombinator (more.map (·.1)) with | .ok _ => true | .error _ => false) && treeFits agg scope ops
  | _, .related d sel :: ops =>
    (match d with
      | none => true
      | some t => match readUsize t with | .ok (_ + 1) => true | _ => false) &&
    sel.all selectorOk && treeFits agg (sel.bind selectorScope) ops
  | scope, .order (.metadata _) _ :: ops => treeFits agg scope ops
  | scope, .order (.regular n) _ :: ops =>
    plainName n && (orderedTypes.any fun t => Column builtInAndMore scope n (· == t)) && treeFits agg scope ops
  | scope, .limit t :: ops => (match readUsize t with | .ok _ => true | .error _ => false) && treeFits agg scope ops

/-- The text is a query that fits. -/
def textFits (s : String) : Bool :=
  match qQuery s.toList with
  | none => false
  | some t => selectorOk t.source && treeFits t.aggregation (selectorScope t.source) t.operations

theorem documented_fit : documentedQueries.all textFits = true := by decide +kernel

/-! ## The check is right -/

/-- The scope is everything or a documented type. -/
def ScopeOk (scope : Option Str) : Prop := ∀ t, scope = some t → t ∈ documentedTypes

theorem column_built {L : Lang} (hL : PlainCase L) {ss : List EntitySchema} (hss : HasBuiltIn L ss) {scope : Option Str}
    (hs : ScopeOk scope) {n : Str} {p : FieldType → Bool} (h : Column builtInAndMore scope n p = true) :
    Column ss scope n p = true := by
  unfold Column at h ⊢
  rw [List.all_eq_true] at h ⊢
  cases scope with
  | none =>
    have := h ⟨"?".toList, []⟩ List.mem_cons_self
    cases this
  | some t =>
    intro s hm
    by_cases ht : s.entityType = t
    · obtain ⟨s0, h0, h1, h2⟩ := hss s hm (ht ▸ hs t rfl)
      rw [defaultSchemas_plain hL] at h0
      have h3 := h s0 (List.mem_cons_of_mem _ h0)
      rw [h1] at h3
      rw [Bool.or_eq_true] at h3 ⊢
      rcases h3 with h3 | h3
      · exact .inl h3
      · obtain ⟨d, hd, h4⟩ := List.any_eq_true.1 h3
        obtain ⟨d', hd', h5, h6⟩ := h2 d hd
        exact .inr (List.any_eq_true.2 ⟨d', hd', by rw [h5, h6]; exact h4⟩)
    · have : InScope (some t) s.entityType = false := by
        unfold InScope
        exact beq_false_of_ne ht
      rw [this]
      rfl

theorem plainName_snake {L : Lang} (hL : PlainCase L) {n : Str} (h : plainName n = true) : L.cases.snake n = n :=
  snake_plain hL h

theorem literal_reads {L : Lang} (hr : ReadsLiterals L) {v : QValue} {k : FilterKind} (h : writtenKind v = some k) :
    ∃ p, readQValue L v = .ok p ∧ (convertValue p).kind = k ∧ DateReadable L.env (convertValue p) = true := by
  cases v with
  | string s => cases h; exact ⟨_, by rw [readQValue], rfl, rfl⟩
  | boolean s => cases h; exact ⟨_, by rw [readQValue], rfl, rfl⟩
  | reference s => cases h; exact ⟨_, by rw [readQValue], rfl, rfl⟩
  | path s => cases h; exact ⟨_, by rw [readQValue], rfl, rfl⟩
  | enum s => cases h; exact ⟨_, by rw [readQValue], rfl, rfl⟩
  | number t => cases h
  | list vs => cases h
  | currency t c =>
    dsimp only [writtenKind] at h
    split at h
    · next ht =>
      cases h
      subst ht
      obtain ⟨f, hf⟩ := Option.isSome_iff_exists.1 hr.amount
      exact ⟨.currency f c, by rw [readQValue]; unfold readF64; rw [hf], rfl, rfl⟩
    · cases h
  | dateTime t =>
    dsimp only [writtenKind] at h
    split at h
    · next ht =>
      cases h
      subst ht
      refine ⟨_, by rw [readQValue], rfl, ?_⟩
      unfold convertValue DateReadable
      dsimp only
      rw [hr.date, Bool.or_true]
    · cases h

theorem cond_fits {L : Lang} (hL : PlainCase L) (hr : ReadsLiterals L) {ss : List EntitySchema} (hss : HasBuiltIn L ss)
    {scope : Option Str} (hs : ScopeOk scope) {c : QCond} (h : condFits scope c = true) :
    ∃ p, readCond L c = .ok p ∧ FitsCondition L.env ss scope (convertCond L.cases p) = true := by
  unfold condFits at h
  cases hk : writtenKind c.value with
  | none => rw [hk] at h; cases h
  | some k =>
    rw [hk] at h
    obtain ⟨v, hv, hvk, hvd⟩ := literal_reads hr hk
    refine ⟨⟨c.field, c.op, v⟩, by unfold readCond; rw [hv], ?_⟩
    unfold FitsCondition convertCond
    cases hf : c.field with
    | metadata n =>
      rw [hf] at h
      simp only [convertField, hvk]
      exact h
    | regular n =>
      rw [hf] at h
      dsimp only at h
      rw [Bool.and_eq_true] at h
      simp only [convertField, hvk, hvd, plainName_snake hL h.1, Bool.and_true]
      exact column_built hL hss hs h.2

theorem conds_fit {L : Lang} (hL : PlainCase L) (hr : ReadsLiterals L) {ss : List EntitySchema} (hss : HasBuiltIn L ss)
    {scope : Option Str} (hs : ScopeOk scope) : ∀ {cs : List QCond}, (∀ c ∈ cs, condFits scope c = true) →
    ∃ ps, collectResults (readCond L) cs = .ok ps ∧
      (ps.map (convertCond L.cases)).all (FitsCondition L.env ss scope) = true
  | [], _ => ⟨[], rfl, rfl⟩
  | c :: cs, h => by
    obtain ⟨p, h1, h2⟩ := cond_fits hL hr hss hs (h c List.mem_cons_self)
    obtain ⟨ps, h3, h4⟩ := conds_fit hL hr hss hs fun c hc => h c (List.mem_cons_of_mem _ hc)
    refine ⟨p :: ps, ?_, ?_⟩
    · unfold collectResults
      rw [h1, h3]
    · rw [List.map_cons, List.all_cons, h2, h4]
      rfl

theorem selector_scope {L : Lang} (hL : PlainCase L) {s : QSelector} (h : selectorOk s = true) :
    selectorType L.cases s = selectorScope s ∧ ScopeOk (selectorScope s) := by
  cases s with
  | wildcard => exact ⟨rfl, fun t ht => by cases ht⟩
  | type n =>
    unfold selectorOk at h
    rw [Bool.and_eq_true] at h
    refine ⟨?_, ?_⟩
    · simp only [selectorType, selectorScope, plainName_snake hL h.1]
    · intro t ht
      cases ht
      exact List.contains_iff_mem.1 h.2

theorem tree_fits {L : Lang} (hL : PlainCase L) (hr : ReadsLiterals L) {ss : List EntitySchema} (hss : HasBuiltIn L ss)
    {agg : Option QAgg} : ∀ {ops : List QOp} {scope : Option Str}, ScopeOk scope → treeFits agg scope ops = true →
    ∃ ps, collectResults (readOp L) ops = .ok ps ∧
      FitsFrom L.env ss scope (agg.map (convertAgg L.cases)) (ps.map (convertOp L.cases)) = true
  | [], scope, _, h => by
    refine ⟨[], rfl, ?_⟩
    cases agg with
    | none => rfl
    | some a => cases a <;> first | rfl | cases h
  | op :: ops, scope, hs, h => by
    have step : ∀ (p : ParsedOperation) (scope' : Option Str), readOp L op = .ok p →
        FitsOperation L.env ss scope (convertOp L.cases p) = true → scopeAfter scope (convertOp L.cases p) = scope' →
        ScopeOk scope' → treeFits agg scope' ops = true →
        ∃ ps, collectResults (readOp L) (op :: ops) = .ok ps ∧
          FitsFrom L.env ss scope (agg.map (convertAgg L.cases)) (ps.map (convertOp L.cases)) = true := by
      intro p scope' h1 h2 h3 h4 h5
      obtain ⟨ps, h6, h7⟩ := tree_fits hL hr hss h4 h5
      refine ⟨p :: ps, ?_, ?_⟩
      · unfold collectResults
        rw [h1, h6]
      · rw [List.map_cons, FitsFrom, h2, h3, h7]
        rfl
    cases op with
    | «where» c more =>
      simp only [treeFits, Bool.and_eq_true] at h
      obtain ⟨⟨⟨h1, h2⟩, h3⟩, h4⟩ := h
      obtain ⟨ps, h5, h6⟩ := conds_fit hL hr hss hs (cs := c :: more.map (·.2)) (by
        intro x hx
        rcases List.mem_cons.1 hx with rfl | hx
        · exact h1
        · obtain ⟨m, hm, rfl⟩ := List.mem_map.1 hx
          exact List.all_eq_true.1 h2 m hm)
      cases hk : readCombinator (more.map (·.1)) with
      | error e => rw [hk] at h3; cases h3
      | ok k =>
        refine step (.where ps k) scope ?_ h6 rfl hs h4
        simp only [readOp, h5, hk]
    | related d sel =>
      simp only [treeFits, Bool.and_eq_true] at h
      obtain ⟨⟨h1, h2⟩, h3⟩ := h
      have hsel : sel.bind (selectorType L.cases) = sel.bind selectorScope ∧ ScopeOk (sel.bind selectorScope) := by
        cases sel with
        | none => exact ⟨rfl, fun t ht => by cases ht⟩
        | some s => exact selector_scope hL h2
      cases d with
      | none =>
        refine step (.related none sel) (sel.bind selectorScope) rfl rfl ?_ hsel.2 h3
        exact hsel.1
      | some t =>
        dsimp only at h1
        cases hn : readUsize t with
        | error e => rw [hn] at h1; cases h1
        | ok n =>
          rw [hn] at h1
          cases n with
          | zero => cases h1
          | succ n =>
            refine step (.related (some (n + 1)) sel) (sel.bind selectorScope) ?_ rfl ?_ hsel.2 h3
            · simp only [readOp, hn]
            · exact hsel.1
    | order f dir =>
      cases f with
      | metadata n => exact step (.order (.metadata n) (dir.getD .ascending)) scope rfl rfl rfl hs h
      | regular n =>
        simp only [treeFits, Bool.and_eq_true] at h
        obtain ⟨⟨h1, h2⟩, h3⟩ := h
        refine step (.order (.regular n) (dir.getD .ascending)) scope rfl ?_ rfl hs h3
        obtain ⟨t, ht, hc⟩ := List.any_eq_true.1 h2
        simp only [convertOp, convertField, FitsOperation, plainName_snake hL h1]
        exact List.any_eq_true.2 ⟨t, ht, column_built hL hss hs hc⟩
    | limit t =>
      simp only [treeFits, Bool.and_eq_true] at h
      cases hn : readUsize t with
      | error e => rw [hn] at h; cases h.1
      | ok n =>
        refine step (.limit n) scope ?_ rfl rfl hs h.2
        simp only [readOp, hn]

/-! ## The queries -/

/-- C161: in every workspace in which the documented types have their built-in schemas, the only error of a documented
query about these types is that there is no entity of the type that it starts from. -/
theorem C161_queries {L : Lang} (hL : PlainCase L) (hr : ReadsLiterals L) (rt : Runtime) (w : Workspace) (b : WorkspaceBuild)
    (g : Graph) (hb : w.build L = .ok b) (hg : b.toGraph = (g, .ok ())) (hss : HasBuiltIn L b.schemas) (text : String)
    (ht : text ∈ documentedQueries) (x : QueryFailure) (hx : runQuery L rt g text.toList = .error x) :
    ∃ t avail, x = .execution (.unknownEntityType t avail) ∧ t ∈ documentedTypes ∧ ∀ e ∈ b.entities, e.entityType ≠ t := by
  have hfit := List.all_eq_true.1 documented_fit text ht
  unfold textFits at hfit
  cases hq : qQuery text.toList with
  | none => rw [hq] at hfit; cases hfit
  | some q =>
    rw [hq] at hfit
    dsimp only at hfit
    rw [Bool.and_eq_true] at hfit
    obtain ⟨hsel, hops⟩ := hfit
    have hsc := selector_scope hL hsel
    obtain ⟨ps, h1, h2⟩ := tree_fits hL hr hss hsc.2 hops
    have hp : parseQuery L text.toList = .ok ⟨q.source, ps, q.aggregation⟩ := by
      unfold parseQuery
      rw [hq]
      dsimp only
      rw [h1]
    have hcs : (convertQuery L.cases ⟨q.source, ps, q.aggregation⟩).source =
        match selectorScope q.source with | some t => .type t | none => .all := by
      unfold convertQuery
      dsimp only
      rw [hsc.1]
      cases selectorScope q.source <;> rfl
    have hfits : FitsSchemas L.env b.schemas (convertQuery L.cases ⟨q.source, ps, q.aggregation⟩) = true := by
      unfold FitsSchemas
      rw [hcs]
      cases hs : selectorScope q.source with
      | none => rw [hs] at h2; exact h2
      | some t => rw [hs] at h2; exact h2
    obtain ⟨e, rfl, h⟩ := C152_workspace L rt w b g hb hg text.toList _ hp hfits x hx
    rcases h with ⟨t, av, h3, rfl, h4⟩ | ⟨a, es, _, h3, _, h4⟩
    · refine ⟨t, av, rfl, ?_, h4⟩
      rw [hcs] at h3
      cases hs : selectorScope q.source with
      | none => rw [hs] at h3; cases h3
      | some u =>
        rw [hs] at h3
        cases h3
        exact hsc.2 _ hs
    · exfalso
      have ha : ∀ {ops : List QOp} {scope : Option Str}, treeFits q.aggregation scope ops = true →
          ∀ a, q.aggregation = some a → (∃ fs, a = .select fs) ∨ ∃ f, a = .count f := by
        intro ops
        induction ops with
        | nil =>
          intro scope h a ha
          rw [ha] at h
          cases a with
          | select fs => exact .inl ⟨fs, rfl⟩
          | count f => exact .inr ⟨f, rfl⟩
          | _ => cases h
        | cons op ops ih =>
          intro scope h
          cases op with
          | order f d => cases f <;> simp only [treeFits, Bool.and_eq_true] at h <;> first | exact ih h | exact ih h.2
          | _ => simp only [treeFits, Bool.and_eq_true] at h; exact ih h.2
      have h5 : q.aggregation.map (convertAgg L.cases) = some a := h3
      cases hqa : q.aggregation with
      | none => rw [hqa] at h5; cases h5
      | some a' =>
        rw [hqa] at h5
        rcases ha hops a' hqa with ⟨fs, rfl⟩ | ⟨f, rfl⟩ <;> (cases h5; cases h4)

/-- C161: and so it answers if there is an entity of the type that it starts from. -/
theorem C161_answers {L : Lang} (hL : PlainCase L) (hr : ReadsLiterals L) (rt : Runtime) (w : Workspace) (b : WorkspaceBuild)
    (g : Graph) (hb : w.build L = .ok b) (hg : b.toGraph = (g, .ok ())) (hss : HasBuiltIn L b.schemas)
    (hall : ∀ t ∈ documentedTypes, ∃ e ∈ b.entities, e.entityType = t) (text : String) (ht : text ∈ documentedQueries) :
    ∃ r, runQuery L rt g text.toList = .ok r := by
  cases hx : runQuery L rt g text.toList with
  | ok r => exact ⟨r, rfl⟩
  | error x =>
    obtain ⟨t, _, _, h1, h2⟩ := C161_queries hL hr rt w b g hb hg hss text ht x hx
    obtain ⟨e, he, het⟩ := hall t h1
    exact absurd het (h2 e he)

/-- The type that a text starts from, if every `Lang` reads it in the same way. -/
def startsFrom (s : String) : Option Str :=
  match qQuery s.toList with
  | some t => match t.source with
    | .type n => if plainName n then some n else none
    | .wildcard => none
  | none => none

theorem foreign_start : foreignQueries.all (fun s => startsFrom s == some "invoice".toList ||
    startsFrom s == some "line_item".toList) = true := by decide +kernel

/-- C161: the other queries of the documentation are about types that are not built in. Without schemas of one's own they
fail in every workspace. -/
theorem C161_foreign {L : Lang} (hL : PlainCase L) (rt : Runtime) (w : Workspace) (b : WorkspaceBuild) (g : Graph)
    (hb : w.build L = .ok b) (hg : b.toGraph = (g, .ok ()))
    (hss : ∀ s ∈ b.schemas, s.entityType ∈ (defaultSchemas L).map (·.entityType)) (text : String) (ht : text ∈ foreignQueries) :
    ∃ x, runQuery L rt g text.toList = .error x := by
  cases hx : runQuery L rt g text.toList with
  | error x => exact ⟨x, rfl⟩
  | ok r =>
    exfalso
    obtain ⟨t, hst, htn⟩ : ∃ t, startsFrom text = some t ∧ t ∉ (defaultSchemas exLang).map (·.entityType) := by
      have := List.all_eq_true.1 foreign_start text ht
      rw [Bool.or_eq_true, beq_iff_eq, beq_iff_eq] at this
      rcases this with h | h
      · exact ⟨_, h, by decide +kernel⟩
      · exact ⟨_, h, by decide +kernel⟩
    apply htn
    rw [← defaultSchemas_plain hL]
    unfold startsFrom at hst
    cases hq : qQuery text.toList with
    | none => rw [hq] at hst; cases hst
    | some q =>
      rw [hq] at hst
      dsimp only at hst
      cases hsrc : q.source with
      | wildcard => rw [hsrc] at hst; cases hst
      | type n =>
        rw [hsrc] at hst
        dsimp only at hst
        split at hst
        · next hn =>
          obtain rfl := Option.some.inj hst
          unfold runQuery parseQuery at hx
          rw [hq] at hx
          dsimp only at hx
          cases hc : collectResults (readOp L) q.operations with
          | error e => rw [hc] at hx; cases hx
          | ok ps =>
            rw [hc] at hx
            dsimp only [convertQuery] at hx
            rw [hsrc] at hx
            dsimp only [selectorType] at hx
            rw [plainName_snake hL hn] at hx
            dsimp only [Query.execute, selectFrom] at hx
            obtain ⟨rfl, hacc, _⟩ := toGraph_run hg
            obtain ⟨es0, ss0⟩ := b
            have hv := (C41_build L w es0 ss0).1 hb
            by_cases hm : n ∈ rt.order 0 (Graph.run (es0.map .add ++ [.build])).getAllEntityTypes
            · rw [(rt.order_perm 0 _).mem_iff, (C03_all_types _).2, hacc] at hm
              obtain ⟨e, he, het⟩ := hm
              obtain ⟨s, hs, _, hc'⟩ := hv.checked e he
              rw [← het, hc'.1]
              exact hss s hs
            · rw [if_neg hm] at hx
              cases hx
        · cases hst

/-! ## An amount -/

theorem filter_fails {env : Env} {c : CompoundCondition} {e : Entity} {x : QueryError}
    (hm : CompoundCondition.matches env c e = .error x) : ∀ {es : List Entity}, e ∈ es →
    ∃ y, filterEntities env c es = .error y
  | [], h => by cases h
  | d :: es, h => by
    rw [filterEntities]
    cases hd : CompoundCondition.matches env c d with
    | error y => exact ⟨y, rfl⟩
    | ok k =>
      rcases List.mem_cons.1 h with rfl | h
      · rw [hm] at hd; cases hd
      · obtain ⟨y, hy⟩ := filter_fails hm h
        dsimp only
        rw [hy]
        exact ⟨y, rfl⟩

theorem filter_keeps {env : Env} {c : CompoundCondition} {e : Entity}
    (hm : CompoundCondition.matches env c e = .ok true) : ∀ {es es' : List Entity}, e ∈ es →
    filterEntities env c es = .ok es' → e ∈ es'
  | [], _, h, _ => by cases h
  | d :: es, es', h, h' => by
    rw [filterEntities] at h'
    cases hd : CompoundCondition.matches env c d with
    | error y => rw [hd] at h'; cases h'
    | ok k =>
      rw [hd] at h'
      dsimp only at h'
      cases hf : filterEntities env c es with
      | error y => rw [hf] at h'; cases h'
      | ok es1 =>
        rw [hf] at h'
        rcases List.mem_cons.1 h with rfl | h
        · rw [hm] at hd
          cases hd
          cases h'
          exact List.mem_cons_self
        · have := filter_keeps hm h hf
          cases k <;> cases h'
          · exact this
          · exact List.mem_cons_of_mem _ this

/-- C161 is false of the documented query `from invoice | where status == "draft" or status == "sent" | where amount >
1000`: it fails as soon as there is a draft of an invoice whose amount is money, as in the documented `sum amount` with the
result `15000.00 USD`. -/
theorem C161_amount (gops : List GOp) (env : Env) (rt : Runtime) (e : Entity) (he : e ∈ accepted gops)
    (ht : e.entityType = "invoice".toList) (hs : e.getField "status".toList = some (.string "draft".toList))
    {a : Decimal} {c : Str} (ha : e.getField "amount".toList = some (.currency a c)) :
    ∃ x, Query.execute env rt (Graph.run gops) ⟨.type "invoice".toList,
      [.where ⟨[⟨.regular "status".toList, .equal, .string "draft".toList⟩,
          ⟨.regular "status".toList, .equal, .string "sent".toList⟩], .or⟩,
        .where (.single ⟨.regular "amount".toList, .greaterThan, .integer 1000⟩)], none⟩ = .error x := by
  rw [← ht]
  have hsel : selectFrom rt (Graph.run gops) (.type e.entityType) = .ok ((Graph.run gops).listByType e.entityType) := by
    rw [selectFrom]
    rw [if_pos]
    rw [(rt.order_perm 0 _).mem_iff, (C03_all_types gops).2]
    exact ⟨e, he, rfl⟩
  have hmem : e ∈ (Graph.run gops).listByType e.entityType := by
    rw [(Inv.run gops).listByType_eq, nodes_run]
    exact List.mem_filter.2 ⟨he, beq_self_eq_true _⟩
  have h1 : CompoundCondition.matches env ⟨[⟨.regular "status".toList, .equal, .string "draft".toList⟩,
      ⟨.regular "status".toList, .equal, .string "sent".toList⟩], .or⟩ e = .ok true := by
    have hc : ∃ k, compareField env (.string "draft".toList) .equal (.string "sent".toList) = .ok k := ⟨_, rfl⟩
    have hd : compareField env (.string "draft".toList) .equal (.string "draft".toList) = .ok true := by
      show Except.ok (eqIgnoreAsciiCase "draft".toList "draft".toList) = _
      exact congrArg _ (by decide)
    obtain ⟨k, hc⟩ := hc
    simp only [CompoundCondition.matches, collectResults, FilterCondition.matches, FilterCondition.matchesField, hs, hd, hc]
    rfl
  have h2 : ∃ y, CompoundCondition.matches env (.single ⟨.regular "amount".toList, .greaterThan, .integer 1000⟩) e =
      .error y := by
    have hc : ∃ y, compareField env (.currency a c) .greaterThan (.integer 1000) = .error y := ⟨_, rfl⟩
    obtain ⟨y, hc⟩ := hc
    refine ⟨y, ?_⟩
    simp only [CompoundCondition.matches, CompoundCondition.single, collectResults, FilterCondition.matches,
      FilterCondition.matchesField, ha, hc]
  obtain ⟨y, h2⟩ := h2
  cases hf : filterEntities env ⟨[⟨.regular "status".toList, .equal, .string "draft".toList⟩,
      ⟨.regular "status".toList, .equal, .string "sent".toList⟩], .or⟩ ((Graph.run gops).listByType e.entityType) with
  | error x =>
    exact ⟨x, by simp only [Query.execute, hsel, applyOperations, applyOperation, hf]⟩
  | ok es' =>
    obtain ⟨x, hx⟩ := filter_fails h2 (filter_keeps h1 hmem hf)
    exact ⟨x, by simp only [Query.execute, hsel, applyOperations, applyOperation, hf, hx]⟩

/-! ## Commands -/

/-- `firm add --type contact --id john_at_acme --field person_ref "person.john_doe" --field organization_ref
"organization.acme"` — docs/src/reference/cli-reference.md:361-363. -/
def Spec.documentedContact : AddLine :=
  ⟨none, some "contact".toList, some "john_at_acme".toList, [("person_ref".toList, "person.john_doe".toList),
    ("organization_ref".toList, "organization.acme".toList)], [], []⟩

/-- `firm add --type person --id alice_wong --field name "Alice Wong" --list skills string --list-value skills "rust"
--list-value skills "python"` — docs/src/reference/cli-reference.md:221-225. -/
def Spec.documentedSkills : AddLine :=
  ⟨none, some "person".toList, some "alice_wong".toList, [("name".toList, "Alice Wong".toList)],
    [("skills".toList, "string".toList)], [("skills".toList, "rust".toList), ("skills".toList, "python".toList)]⟩

/-- C161 is false of two documented commands: with the built-in schemas they are refused on every disk, because the
schemas have no field of this name. -/
theorem C161_commands (D : Dialogue) (hL : PlainCase D.shell.lang) (hord : ∀ m, (D.shell.order m).Perm m) (g : Graph)
    (schemas : List EntitySchema) (hss : OnlyBuiltIn D.shell.lang schemas) (d : FsTree) (as : List Answer) :
    D.addEntity g schemas d documentedContact as = (d, false) ∧
    D.addEntity g schemas d documentedSkills as = (d, false) := by
  have key : ∀ (t n : Str) (sc : EntitySchema), sc ∈ schemas → sc.entityType = t → t ∈ documentedTypes → plainName n = true →
      (defaultSchemas exLang).all (fun s => s.entityType != t || !(s.fields.map (·.1)).contains n) = true →
      D.shell.lang.cases.snake n ∉ sc.fields.map (·.1) := by
    intro t n sc hsc ht htd hn hall
    obtain ⟨s0, hm, h1, h2⟩ := hss sc hsc (ht ▸ htd)
    rw [defaultSchemas_plain hL] at hm
    have := List.all_eq_true.1 hall s0 hm
    rw [h1, ht, bne_self_eq_false, Bool.false_or, Bool.not_eq_true'] at this
    rw [plainName_snake hL hn]
    intro hc
    obtain ⟨d, hd, rfl⟩ := List.mem_map.1 hc
    rw [List.contains_iff_mem.2 (h2 d hd)] at this
    cases this
  constructor
  · refine C133_hopeless D hord g schemas d _ as rfl fun sc hsc ht => ?_
    refine .field (q := ("organization_ref".toList, "organization.acme".toList)) (by decide) ?_
    exact key "contact".toList "organization_ref".toList sc hsc ht (by decide) (by decide +kernel) (by decide +kernel)
  · refine C133_hopeless D hord g schemas d _ as rfl fun sc hsc ht => ?_
    refine .list (q := ("skills".toList, "string".toList)) (by decide) ?_
    exact key "person".toList "skills".toList sc hsc ht (by decide) (by decide +kernel) (by decide +kernel)

/-! ## Examples -/

/-- A `Lang` that reads the literals. -/
def exDocLang : Lang :=
  { exLang with
    env := { exEnv with parseDate := fun s => if s = "2025-01-01".toList then some 20089 else exEnv.parseDate s }
    parseF64 := fun s => if s = "10000.00".toList then some (F64.ofInt 10000) else none }

theorem exDocLang_reads : ReadsLiterals exDocLang := ⟨by decide, by decide⟩

theorem exDocLang_plain : PlainCase exDocLang := ⟨exLang_plain.regular, exLang_plain.upper, exLang_plain.lower⟩

/-- A schema in the source has the built-in fields of a task and one more. -/
def exTaskWorkspace : Workspace :=
  [exFile "a.firm" [exSchemaNode "task" [("name", "string", "true"), ("description", "string", "false"),
      ("source_ref", "reference", "false"), ("assignee_ref", "reference", "false"), ("due_date", "datetime", "false"),
      ("is_completed", "boolean", "false"), ("completed_at", "datetime", "false"), ("notes", "string", "false"),
      ("created_at", "datetime", "false"), ("updated_at", "datetime", "false"), ("hours", "integer", "false")],
    exEntityNode "task" "a" [exFieldNode "name" "string" "\"A\"", exFieldNode "is_completed" "boolean" "false"]]]

/-- The schemas of the example build. -/
def exTaskSchemas : List EntitySchema :=
  match exTaskWorkspace.build exDocLang with
  | .ok b => b.schemas
  | .error _ => []

example : (match exTaskWorkspace.build exDocLang with
    | .ok b => match b.toGraph with
      | (g, .ok ()) => match runQuery exDocLang exRt g "from task | where is_completed == false | count".toList with
        | .ok (.aggregation (.count n)) => decide (n = 1)
        | _ => false
      | _ => false
    | .error _ => false) = true := by decide +kernel

example : exTaskSchemas ≠ [] ∧ HasBuiltIn exDocLang exTaskSchemas := by
  have h : (exTaskSchemas.length == 1 && exTaskSchemas.all fun s => (defaultSchemas exDocLang).any fun s0 =>
      s0.entityType == s.entityType && s0.fields.all fun d => s.fields.any fun d' =>
        d'.1 == d.1 && d'.2.fieldType == d.2.fieldType) = true := by decide +kernel
  rw [Bool.and_eq_true, beq_iff_eq] at h
  refine ⟨fun h0 => by rw [h0] at h; exact absurd h.1 (by decide), fun s hs _ => ?_⟩
  obtain ⟨s0, h0, h1⟩ := List.any_eq_true.1 (List.all_eq_true.1 h.2 s hs)
  rw [Bool.and_eq_true, beq_iff_eq] at h1
  refine ⟨s0, h0, h1.1, fun d hd => ?_⟩
  obtain ⟨d', hd', h2⟩ := List.any_eq_true.1 (List.all_eq_true.1 h1.2 d hd)
  rw [Bool.and_eq_true, beq_iff_eq, beq_iff_eq] at h2
  exact ⟨d', hd', h2⟩

/-- The built-in schemas themselves. -/
example {L : Lang} : HasBuiltIn L (defaultSchemas L) ∧ OnlyBuiltIn L (defaultSchemas L) :=
  ⟨fun s hs _ => ⟨s, hs, rfl, fun d hd => ⟨d, hd, rfl, rfl⟩⟩, fun s hs _ => ⟨s, hs, rfl, fun _ hd => List.mem_map_of_mem hd⟩⟩

/-- A draft of an invoice. -/
example : ∃ e ∈ accepted [.add ⟨"invoice.a".toList, "invoice".toList, [("status".toList, .string "draft".toList),
      ("amount".toList, .currency ⟨200000, 2⟩ "USD".toList)]⟩, .build], e.entityType = "invoice".toList ∧
    e.getField "status".toList = some (.string "draft".toList) ∧
    e.getField "amount".toList = some (.currency ⟨200000, 2⟩ "USD".toList) := by
  refine ⟨⟨"invoice.a".toList, "invoice".toList, [("status".toList, .string "draft".toList),
      ("amount".toList, .currency ⟨200000, 2⟩ "USD".toList)]⟩, ?_, by decide, by decide, by decide⟩
  decide +kernel

end Firm
