import Verif.Props.Strings
import Verif.Props.Schema

/-!
# Reading generated text back: schemas, lists, floats, enums, entities (C55, C67–C70)
-/

namespace Firm
open Spec

variable {L : Lang} {o : GeneratorOptions} {source : Str}

/-! ## C67: lists -/

theorem fromNode_list (items : List FieldValue) :
    fromNode L source (valueNode L o (.list items)) =
      match fromItems L source (itemNodes L o [] items) with
      | .ok vs => parseListFromVec vs
      | .error e => .error e := by
  simp only [valueNode, fromNode, if_true]
  rw [show fromItems L source (tokenNode "[" :: itemNodes L o [] items) =
    fromItems L source (itemNodes L o [] items) from by rw [fromItems, if_neg (by decide)]]
  rfl

theorem valueNode_kind (v : FieldValue) : (valueNode L o v).kind = "value".toList := by
  cases v <;> simp [valueNode, Node.kind]

theorem fromItems_token {t : String} (ht : t.toList ≠ "value".toList) (ns : List Node) :
    fromItems L source (tokenNode t :: ns) = fromItems L source ns := by
  rw [fromItems, if_neg (by exact ht)]

theorem fromItems_skip {before : List Node} (hb : ∀ n ∈ before, n.kind ≠ "value".toList) (ns : List Node) :
    fromItems L source (before ++ ns) = fromItems L source ns := by
  induction before with
  | nil => rfl
  | cons b bs ih =>
    rw [List.cons_append, fromItems, if_neg (hb b (by simp)), ih fun n hn => hb n (by simp [hn])]

theorem comma_skip : ∀ n ∈ [tokenNode ","], n.kind ≠ "value".toList := by
  intro n hn
  rw [List.mem_singleton.1 hn]; decide

/-- The items of a generated list are read one by one. -/
theorem fromItems_spec {before : List Node} (hb : ∀ n ∈ before, n.kind ≠ "value".toList) (items : List FieldValue)
    (vs : List ParsedValue) :
    fromItems L source (itemNodes L o before items) = .ok vs ↔
      List.Forall₂ (fun v p => fromNode L source (valueNode L o v) = .ok p) items vs := by
  induction items generalizing before vs with
  | nil =>
    rw [itemNodes, fromItems_token (by decide), fromItems]
    constructor
    · intro h; injection h with h; subst h; exact .nil
    · intro h; cases h; rfl
  | cons v items ih =>
    rw [itemNodes, fromItems_skip hb, fromItems, if_pos (valueNode_kind v)]
    cases hv : fromNode L source (valueNode L o v) with
    | error e =>
      simp only [reduceCtorEq, false_iff]
      intro h; cases h with
      | cons h1 _ => rw [hv] at h1; cases h1
    | ok p =>
      cases hs : fromItems L source (itemNodes L o [tokenNode ","] items) with
      | error e =>
        simp only [reduceCtorEq, false_iff]
        intro h; cases h with
        | cons _ h2 => rw [(ih comma_skip _).2 h2] at hs; cases hs
      | ok ps =>
        simp only [Except.ok.injEq]
        constructor
        · rintro rfl; exact .cons hv ((ih comma_skip _).1 hs)
        · intro h; cases h with
          | cons h1 h2 =>
            rw [hv] at h1; injection h1 with h1; subst h1
            rw [(ih comma_skip _).2 h2] at hs; injection hs with hs; rw [hs]

/-- The names of the kinds. -/
def kindNames : List (String × Str) :=
  [("boolean", "Boolean".toList), ("string", "String".toList), ("integer", "Integer".toList),
   ("float", "Float".toList), ("currency", "Currency".toList), ("entity reference", "EntityReference".toList),
   ("field reference", "FieldReference".toList), ("list", "List".toList), ("datetime", "DateTime".toList),
   ("path", "Path".toList), ("enum", "Enum".toList)]

/-- The name of the kind of a parsed value is a function of the value it stands for. -/
theorem typeName_of_kind {t : CaseTable} (p : ParsedValue) :
    p.typeName = ((kindNames.find? fun k => k.1 == itemKind (toFieldValue t p)).map (·.2)).getD [] := by
  cases p <;> rfl

theorem kind_of_typeName {t : CaseTable} (p : ParsedValue) :
    itemKind (toFieldValue t p) = ((kindNames.find? fun k => k.2 == p.typeName).map (·.1)).getD "" := by
  cases p <;> rfl

theorem typeName_eq_iff {t : CaseTable} (p q : ParsedValue) :
    p.typeName = q.typeName ↔ itemKind (toFieldValue t p) = itemKind (toFieldValue t q) := by
  constructor
  · intro h; rw [kind_of_typeName p, kind_of_typeName q, h]
  · intro h; rw [typeName_of_kind (t := t) p, typeName_of_kind (t := t) q, h]

theorem toFieldValues_map (t : CaseTable) (vs : List ParsedValue) :
    toFieldValues t vs = vs.map (toFieldValue t) := by
  induction vs with
  | nil => rfl
  | cons v vs ih => rw [toFieldValues, ih]; rfl

/-- C67: a list reads back iff its items do and they are all of one kind. -/
theorem C67_list (items : List FieldValue) :
    ReadsBack L o source (.list items) ↔
      (∀ v ∈ items, ReadsBack L o source v) ∧ ∀ v ∈ items, ∀ w ∈ items, itemKind v = itemKind w := by
  have hmap : ∀ {items : List FieldValue} {vs : List ParsedValue},
      List.Forall₂ (fun v p => fromNode L source (valueNode L o v) = .ok p) items vs →
      vs.map (toFieldValue L.cases) = items → ∀ v ∈ items, ReadsBack L o source v := by
    intro items vs hf hm
    induction hf with
    | nil => simp
    | @cons v p vs ps hv _ ih =>
      simp only [List.map_cons, List.cons.injEq] at hm
      intro w hw
      rcases List.mem_cons.1 hw with rfl | hw
      · exact ⟨p, hv, hm.1⟩
      · exact ih hm.2 w hw
  constructor
  · rintro ⟨p, hp, hv⟩
    rw [fromNode_list] at hp
    cases hi : fromItems L source (itemNodes L o [] items) with
    | error e => rw [hi] at hp; cases hp
    | ok vs =>
      rw [hi] at hp
      have hf := (fromItems_spec (by simp) items vs).1 hi
      simp only [C53_accepted] at hp
      obtain ⟨hk, rfl⟩ := hp
      simp only [toFieldValue, FieldValue.list.injEq, toFieldValues_map] at hv
      refine ⟨hmap hf hv, ?_⟩
      rw [← hv]
      intro v hv w hw
      obtain ⟨p, hp, rfl⟩ := List.mem_map.1 hv
      obtain ⟨q, hq, rfl⟩ := List.mem_map.1 hw
      exact (typeName_eq_iff p q).1 (hk p hp q hq)
  · rintro ⟨h1, h2⟩
    obtain ⟨vs, hf, hm⟩ : ∃ vs, List.Forall₂ (fun v p => fromNode L source (valueNode L o v) = .ok p) items vs ∧
        vs.map (toFieldValue L.cases) = items := by
      clear h2 hmap
      induction items with
      | nil => exact ⟨[], .nil, rfl⟩
      | cons v items ih =>
        obtain ⟨vs, hf, hm⟩ := ih fun w hw => h1 w (by simp [hw])
        obtain ⟨p, hp, hv⟩ := h1 v (by simp)
        exact ⟨p :: vs, .cons hp hf, by rw [List.map_cons, hv, hm]⟩
    refine ⟨.list vs, ?_, ?_⟩
    · rw [fromNode_list, (fromItems_spec (by simp) items vs).2 hf]
      show parseListFromVec vs = _
      rw [C53_accepted]
      refine ⟨fun p hp q hq => ?_, rfl⟩
      rw [typeName_eq_iff (t := L.cases)]
      exact h2 _ (by rw [← hm]; exact List.mem_map_of_mem hp) _ (by rw [← hm]; exact List.mem_map_of_mem hq)
    · rw [toFieldValue, toFieldValues_map, hm]

/-- Nested lists of any depth read back once their leaves do. -/
example : ReadsBack exLang .default [] (.list [.list [.integer 1, .integer 2], .list []]) :=
  (C67_list _).2 ⟨by
    intro v hv
    simp only [List.mem_cons, List.not_mem_nil, or_false] at hv
    rcases hv with rfl | rfl
    · refine (C67_list _).2 ⟨?_, ?_⟩
      · intro v hv
        simp only [List.mem_cons, List.not_mem_nil, or_false] at hv
        rcases hv with rfl | rfl <;> exact C50_integer (by decide)
      · simp [itemKind]
    · exact (C67_list _).2 ⟨by simp, by simp⟩, by simp [itemKind, literalKind]⟩

/-! ## C68: floats -/

/-- What the standard library promises about the text of finite floats: parsing it gives the float back,
and so does parsing it with `.0` appended when it has no decimal point. -/
structure FloatText (L : Lang) (f : F64) : Prop where
  parse : L.parseF64 (L.showF64 f) = some f
  parseInt : '.' ∉ L.showF64 f → L.parseF64 (L.showF64 f ++ ['.', '0']) = some f

/-- C68: floats.  Missing: infinities and NaN do not meet the hypothesis (`C68_infinite`). -/
theorem C68_float_partial {f : F64} (h : FloatText L f) : ReadsBack L o source (.float f) := by
  refine ⟨.float f, ?_, rfl⟩
  rw [fromNode_leaf (by simp)]
  show parseLeaf L source "number".toList (generateFloat L f) = _
  rw [parseLeaf_number]
  unfold parseNumber generateFloat
  by_cases hd : '.' ∈ L.showF64 f
  · simp only [if_pos hd, h.parse]
  · simp only [if_neg hd]
    rw [if_pos (by simp), h.parseInt hd]

/-- C68: a float whose text has no digits, such as `inf`, is written as `inf.0`; it is lost whenever that
does not parse as a float. -/
theorem C68_infinite {f : F64} (h1 : L.showF64 f = "inf".toList) (h2 : L.parseF64 "inf.0".toList = none) :
    ∀ v, ¬ ReadsAs L o source (.float f) v := by
  rintro v ⟨p, hp, -⟩
  rw [fromNode_leaf (by simp)] at hp
  rw [show (literalKind (.float f)).toList = "number".toList from rfl, parseLeaf_number] at hp
  rw [show generateValue L o (.float f) = generateFloat L f by simp only [generateValue]] at hp
  unfold parseNumber generateFloat at hp
  rw [h1] at hp
  have hd : '.' ∉ "inf".toList := by decide
  simp only [if_neg hd] at hp
  rw [if_pos (by simp), show "inf".toList ++ ['.', '0'] = "inf.0".toList from rfl, h2] at hp
  cases hp

/-! ## C69: enums -/

/-- A pattern ending with a quotation mark occurs only at the end of a quotation. -/
theorem startsWith_quoted {q s : Str} (hs : '"' ∉ s) (hq : '"' ∉ q) :
    startsWith (s ++ ['"']) (q ++ ['"']) = true ↔ s = q := by
  unfold startsWith
  rw [List.isPrefixOf_iff_prefix]
  constructor
  · rintro ⟨r, hr⟩
    induction q generalizing s with
    | nil =>
      cases s with
      | nil => rfl
      | cons c s =>
        simp only [List.nil_append, List.cons_append, List.cons.injEq] at hr
        exact absurd (by rw [hr.1]; simp) hs
    | cons d q ih =>
      cases s with
      | nil =>
        simp only [List.cons_append, List.nil_append, List.cons.injEq] at hr
        exact absurd (by simp [hr.1]) hq
      | cons c s =>
        simp only [List.cons_append, List.cons.injEq] at hr
        rw [hr.1, ih (fun h => hs (by simp [h])) (fun h => hq (by simp [h])) hr.2]
  · rintro rfl; exact List.prefix_refl _

/-- Replacing in a quotation: only its very end can match. -/
theorem replace_quoted {q s : Str} (hs : '"' ∉ s) (hq : '"' ∉ q) (hne : q ≠ []) :
    (∀ x, s = x ++ q → replaceGo (q ++ ['"']) [] 0 (s ++ ['"']) = x) ∧
    ((∀ x, s ≠ x ++ q) → replaceGo (q ++ ['"']) [] 0 (s ++ ['"']) = s ++ ['"']) := by
  induction s with
  | nil =>
    refine ⟨fun x hx => ?_, fun _ => ?_⟩
    · simp only [List.nil_eq, List.append_eq_nil_iff] at hx; exact absurd hx.2 hne
    · rw [List.nil_append, replaceGo]
      rw [if_neg ?_]
      · rfl
      · intro h
        exact hne ((startsWith_quoted (s := []) (by simp) hq).1 h).symm
  | cons c s ih =>
    have hs' : '"' ∉ s := fun h => hs (by simp [h])
    obtain ⟨ih1, ih2⟩ := ih hs'
    rw [List.cons_append, replaceGo]
    by_cases hm : c :: s = q
    · have hst : startsWith (c :: (s ++ ['"'])) (q ++ ['"']) = true := (startsWith_quoted hs hq).2 hm
      rw [if_pos hst]
      have hlen : (q ++ ['"']).length - 1 = (s ++ ['"']).length := by
        rw [← hm]; simp
      rw [hlen]
      have hz : replaceGo (q ++ ['"']) [] (s ++ ['"']).length (s ++ ['"']) = [] := by
        have := replaceGo_skip (q ++ ['"']) [] (s ++ ['"']) []
        rw [List.append_nil] at this
        rw [this]; rfl
      rw [hz]
      refine ⟨fun x hx => ?_, fun h => absurd hm (by simpa using h [])⟩
      rw [hm] at hx
      have := congrArg List.length hx
      rw [List.length_append] at this
      have : x = [] := List.length_eq_zero_iff.1 (by omega)
      rw [this]; rfl
    · have hst : ¬ startsWith (c :: (s ++ ['"'])) (q ++ ['"']) = true := fun h => hm ((startsWith_quoted hs hq).1 h)
      rw [if_neg hst]
      refine ⟨fun x hx => ?_, fun h => ?_⟩
      · cases x with
        | nil => exact absurd hx hm
        | cons d x =>
          simp only [List.cons_append, List.cons.injEq] at hx
          rw [ih1 x hx.2, hx.1]
      · rw [ih2 fun x hx => h (c :: x) (by rw [hx]; rfl)]

/-- Replacing the opening of a literal. -/
theorem replace_literal {q s : Str} (hq : '"' ∉ q) (hne : q ≠ []) :
    strReplace (q ++ ['"']) [] (q ++ ['"'] ++ s) = replaceGo (q ++ ['"']) [] 0 s := by
  unfold strReplace
  cases q with
  | nil => exact absurd rfl hne
  | cons c q =>
    rw [List.cons_append, List.cons_append, replaceGo, if_pos]
    · have : (c :: (q ++ ['"'])).length - 1 = (q ++ ['"']).length := by simp
      rw [this, replaceGo_skip]; rfl
    · unfold startsWith
      rw [List.isPrefixOf_iff_prefix]
      exact ⟨s, rfl⟩

theorem trimMatches_end {s : Str} (h : '"' ∉ s) : trimMatches '"' (s ++ ['"']) = s ∧ trimMatches '"' s = s := by
  have drop_self : ∀ s : Str, '"' ∉ s → s.dropWhile (· == '"') = s := by
    intro s hs
    cases s with
    | nil => rfl
    | cons d s =>
      have : (d == '"') = false := by simp only [beq_eq_false_iff_ne]; rintro rfl; simp at hs
      simp [this]
  have h2 : trimMatches '"' s = s := by
    unfold trimMatches
    rw [drop_self s h, drop_self _ (by simpa using h), List.reverse_reverse]
  refine ⟨?_, h2⟩
  cases s with
  | nil => rfl
  | cons d s =>
    have hd : (d == '"') = false := by simp only [beq_eq_false_iff_ne]; rintro rfl; simp at h
    unfold trimMatches
    rw [List.cons_append, List.dropWhile_cons, hd, ← List.cons_append]
    simp only [Bool.false_eq_true, if_false]
    rw [List.reverse_append, List.reverse_singleton, List.singleton_append, List.dropWhile_cons, if_pos (by rfl),
      drop_self _ (fun hm => h (List.mem_reverse.1 hm)), List.reverse_reverse]

/-- The text between the quotes of a prefixed literal, as the parsers compute it. -/
theorem literal_text {q s : Str} (hq : '"' ∉ q) (hne : q ≠ []) (hs : '"' ∉ s) :
    (∀ x, s = x ++ q → trimMatches '"' (strReplace (q ++ ['"']) [] (q ++ ['"'] ++ s ++ ['"'])) = x) ∧
    ((∀ x, s ≠ x ++ q) → trimMatches '"' (strReplace (q ++ ['"']) [] (q ++ ['"'] ++ s ++ ['"'])) = s) := by
  rw [List.append_assoc (q ++ ['"']), replace_literal hq hne]
  obtain ⟨h1, h2⟩ := replace_quoted hs hq hne
  refine ⟨fun x hx => ?_, fun h => ?_⟩
  · rw [h1 x hx]
    exact (trimMatches_end (fun hm => hs (by rw [hx]; simp [hm]))).2
  · rw [h2 h]; exact (trimMatches_end hs).1

theorem parseLeaf_enum (raw : Str) : parseLeaf L source "enum".toList raw = parseEnum raw := by
  unfold parseLeaf
  rw [if_neg (by decide), if_neg (by decide), if_neg (by decide), if_neg (by decide), if_neg (by decide),
    if_neg (by decide), if_neg (by decide), if_neg (by decide), if_pos rfl]

/-- C69: what is read for an enum value without quotation marks. -/
theorem C69_reads_as {s : Str} (hs : '"' ∉ s) :
    ((∀ x, s ≠ x ++ "enum".toList) → ReadsBack L o source (.enum s)) ∧
    (∀ x, s = x ++ "enum".toList → ReadsAs L o source (.enum s) (.enum x)) := by
  have hg : generateValue L o (.enum s) = "enum".toList ++ ['"'] ++ s ++ ['"'] := by
    simp only [generateValue]; rfl
  obtain ⟨h1, h2⟩ := literal_text (q := "enum".toList) (by decide) (by decide) hs
  have key : ∀ v, trimMatches '"' (strReplace ("enum".toList ++ ['"']) [] ("enum".toList ++ ['"'] ++ s ++ ['"'])) = v →
      ReadsAs L o source (.enum s) (.enum v) := by
    intro v hv
    refine ⟨.enum v, ?_, rfl⟩
    rw [fromNode_leaf (by simp), show (literalKind (.enum s)).toList = "enum".toList from rfl, parseLeaf_enum, hg]
    unfold parseEnum
    rw [show "enum\"".toList = "enum".toList ++ ['"'] from rfl, hv]
  exact ⟨fun h => key s (h2 h), fun x hx => key x (h1 x hx)⟩

/-- C69: an enum value without quotation marks reads back iff it does not end with `enum`.  Missing: values
that end so lose the ending. -/
theorem C69_enum_partial {s : Str} (hs : '"' ∉ s) :
    ReadsBack L o source (.enum s) ↔ ∀ x, s ≠ x ++ "enum".toList := by
  constructor
  · rintro ⟨p, hp, hv⟩ x hx
    obtain ⟨p', hp', hv'⟩ := (C69_reads_as (L := L) (o := o) (source := source) hs).2 x hx
    rw [hp] at hp'; injection hp' with hp'; subst hp'
    rw [hv] at hv'
    injection hv' with hv'
    have := congrArg List.length (hv'.symm.trans hx)
    simp at this
  · exact (C69_reads_as hs).1

example : ReadsAs exLang .default [] (.enum "my_enum".toList) (.enum "my_".toList) := ⟨.enum "my_".toList, rfl, rfl⟩
example : ReadsBack exLang .default [] (.enum "customer".toList) := ⟨.enum "customer".toList, rfl, rfl⟩

/-! ## C70: whole entities -/

theorem childOfKind_field (name : Str) (v : Node) (hv : v.kind = "value".toList) :
    fieldName (fieldNode name v) = some name ∧ (fieldNode name v).childOfKind "value" = some v := by
  constructor
  · rfl
  · unfold fieldNode Node.childOfKind
    simp only [Node.children, List.find?_cons]
    rw [show (decide ((Node.mk "field_name".toList name []).kind = "value".toList)) = false from by rfl]
    rw [show (decide ((tokenNode "=").kind = "value".toList)) = false from by rfl]
    simp [hv]

/-- The fields of a block are its items of the kind `field`. -/
theorem blockItems_fields (kind text : Str) (a : Node) (inner outer : Str) (b : Node) (items : List Node)
    (want : String) (ha : a.kind ≠ "block".toList) (hb : b.kind ≠ "block".toList) (hw : want.toList ≠ "{".toList)
    (hw' : want.toList ≠ "}".toList) (hi : ∀ n ∈ items, n.kind = want.toList) :
    (Node.mk kind text [a, b, blockNode inner outer items]).blockItems want = items := by
  unfold Node.blockItems Node.childOfKind
  simp only [Node.children, List.find?_cons]
  simp only [ha, hb, decide_false]
  rw [show (blockNode inner outer items).kind = "block".toList from rfl]
  simp only [decide_true]
  show (tokenNode "{" :: items ++ [tokenNode "}"]).filter _ = _
  rw [List.cons_append, List.filter_cons, if_neg (fun h => hw (of_decide_eq_true h).symm),
    List.filter_append]
  rw [List.filter_eq_self.2 (fun n hn => by simpa using hi n hn)]
  simp only [List.filter_cons, List.filter_nil, List.append_right_eq_self]
  rw [if_neg (fun h => hw' (of_decide_eq_true h).symm)]

theorem toField_node {v v' : FieldValue} (name : Str) (h : ReadsAs L o source v v') :
    toField L source (fieldNode name (valueNode L o v)) = .ok (name, v') := by
  obtain ⟨p, hp, hv⟩ := h
  obtain ⟨h1, h2⟩ := childOfKind_field name (valueNode L o v) (valueNode_kind v)
  unfold toField fieldValue
  rw [h1, h2]
  simp only [hp, hv]

/-- C70: an entity whose values read back reads back up to normalisation of its type and id. -/
theorem C70_reads_as (e : Entity) (h : ∀ p ∈ e.fields, ReadsBack L o source p.2) :
    toEntity L source (entityNode L o e) =
      .ok ⟨L.cases.composeEntityId (L.cases.lower e.entityType) (decomposeEntityId e.id).2,
        L.cases.lower e.entityType, e.fields⟩ := by
  have hf : entityFields (entityNode L o e) = e.fields.map fun p => fieldNode p.1 (valueNode L o p.2) := by
    unfold entityFields entityNode
    refine blockItems_fields _ _ _ _ _ _ _ _ ?_ ?_ ?_ ?_ ?_
    · simp only [Node.kind]; decide
    · simp only [Node.kind]; decide
    · decide
    · decide
    · intro n hn
      obtain ⟨p, -, rfl⟩ := List.mem_map.1 hn
      rfl
  unfold toEntity
  rw [show entityTypeOf (entityNode L o e) = some (L.cases.lower e.entityType) from rfl,
    show entityIdOf (entityNode L o e) = some (decomposeEntityId e.id).2 from rfl, hf]
  have hc : collectResults (toField L source) (e.fields.map fun p => fieldNode p.1 (valueNode L o p.2)) =
      .ok e.fields := by
    have : ∀ l : List (FieldId × FieldValue), (∀ p ∈ l, ReadsBack L o source p.2) →
        collectResults (toField L source) (l.map fun p => fieldNode p.1 (valueNode L o p.2)) = .ok l := by
      intro l hl
      induction l with
      | nil => rfl
      | cons p l ih =>
        simp only [List.map_cons, collectResults, toField_node p.1 (hl p (by simp)),
          ih fun q hq => hl q (by simp [hq])]
    exact this e.fields h
  simp only [hc]

/-- C70: an entity with a lower-case type whose id is its type and an id joined by a dot, in normal form,
reads back.  Missing: a type with capital letters does not (`C70_capital_type`). -/
theorem C70_entity_partial (ht : RegularCase L.cases) {id : Str} {ty : EntityType} {fields : List (FieldId × FieldValue)}
    (hd : '.' ∉ ty) (hn : IsSnake L.cases (ty ++ '.' :: id)) (h : ∀ p ∈ fields, ReadsBack L o source p.2) :
    toEntity L source (entityNode L o ⟨ty ++ '.' :: id, ty, fields⟩) = .ok ⟨ty ++ '.' :: id, ty, fields⟩ := by
  rw [C70_reads_as _ h]
  have hl : L.cases.lower ty = ty := lower_fixed ht (fun c hc => (hn.chars c (by simp [hc])).1)
  have hdec : (decomposeEntityId (ty ++ '.' :: id)).2 = id := by
    have : splitOnceDot (ty ++ '.' :: id) = some (ty, id) := by
      clear hn hl
      induction ty with
      | nil => rfl
      | cons c ty ih =>
        rw [List.cons_append, splitOnceDot, if_neg (by rintro rfl; simp at hd),
          ih (fun h => hd (by simp [h]))]; rfl
    unfold decomposeEntityId
    rw [this]; rfl
  simp only [hdec, hl, compose_parts ht hn]

/-- A language whose floats are written and read as the texts of halves. -/
def exFloatLang : Lang :=
  { exLang with
    showF64 := fun f => if f = .fin (1 / 2) then "0.5".toList else "3".toList
    parseF64 := fun s => if s = "0.5".toList then some (.fin (1 / 2)) else
      if s = "3".toList ∨ s = "3.0".toList then some (.fin 3) else none }

example : FloatText exFloatLang (.fin (1 / 2)) ∧ FloatText exFloatLang (.fin 3) :=
  ⟨⟨by decide +kernel, by decide +kernel⟩, ⟨by decide +kernel, by decide +kernel⟩⟩

example : toEntity exLang [] (entityNode exLang .default ⟨"person.john_doe".toList, "person".toList,
      [("age".toList, .integer 42), ("tags".toList, .list [.string "a".toList, .string "b".toList])]⟩) =
    .ok ⟨"person.john_doe".toList, "person".toList,
      [("age".toList, .integer 42), ("tags".toList, .list [.string "a".toList, .string "b".toList])]⟩ := by
  rfl

/-- C70: a type written with capital letters comes back in lower case. -/
theorem C70_capital_type :
    toEntity exLang [] (entityNode exLang .default ⟨"mytask.a".toList, "MyTask".toList, []⟩) =
      .ok ⟨"mytask.a".toList, "mytask".toList, []⟩ := by
  rfl

/-! ## C55: schemas -/

/-- The text has no quotation mark at its ends. -/
def Unquoted (s : Str) : Prop := s.head? ≠ some '"' ∧ s.getLast? ≠ some '"'

theorem parse_quoted {s : Str} (hq : Unquoted s) : parseString ('"' :: s ++ ['"']) = .ok (.string s) := by
  unfold parseString
  have hns : (startsWith ('"' :: s ++ ['"']) tripleQuote) = false := by
    cases s with
    | nil => rfl
    | cons c s =>
      have : ('"' == c) = false := by
        simp only [beq_eq_false_iff_ne, ne_eq]; rintro rfl; exact hq.1 rfl
      simp [tripleQuote, startsWith, List.isPrefixOf, this]
  rw [hns]
  simp only [Bool.false_and, Bool.false_eq_true, if_false]
  rw [trimMatches_quoted hq.1 hq.2]

theorem fromNode_quoted {s : Str} (hq : Unquoted s) : fromNode L source (quotedNode s) = .ok (.string s) := by
  unfold quotedNode
  rw [fromNode, if_neg (by decide), parseLeaf_string, parse_quoted hq]

theorem fromItems_quoted {before : List Node} (hb : ∀ n ∈ before, n.kind ≠ "value".toList) {vs : List Str}
    (h : ∀ v ∈ vs, Unquoted v) :
    fromItems L source (quotedItems before vs) = .ok (vs.map .string) := by
  induction vs generalizing before with
  | nil => rw [quotedItems, fromItems_token (by decide)]; rfl
  | cons v vs ih =>
    rw [quotedItems, fromItems_skip hb, fromItems, if_pos (show (quotedNode v).kind = "value".toList from rfl), fromNode_quoted (h v (by simp)),
      ih comma_skip fun w hw => h w (by simp [hw])]
    rfl

theorem fromNode_quotedList {vs : List Str} (h : ∀ v ∈ vs, Unquoted v) :
    fromNode L source (quotedListNode vs) = .ok (.list (vs.map .string)) := by
  unfold quotedListNode
  simp only
  rw [fromNode, if_pos rfl, fromItems_token (by decide), fromItems_quoted (by simp) h]
  show parseListFromVec _ = _
  rw [C53_accepted]
  refine ⟨?_, rfl⟩
  intro v hv w hw
  obtain ⟨x, -, rfl⟩ := List.mem_map.1 hv
  obtain ⟨y, -, rfl⟩ := List.mem_map.1 hw
  rfl

theorem stringItems_map (vs : List Str) : stringItems (vs.map .string) = some vs := by
  induction vs with
  | nil => rfl
  | cons v vs ih => rw [List.map_cons, stringItems, ih]; rfl

theorem convert_typeName (t : FieldType) : convertFieldType (fieldTypeName t) = .ok t := by
  cases t <;> rfl

theorem fromNode_flag (b : Bool) : fromNode L source (flagNode b) = .ok (.boolean b) := by
  cases b <;> rfl

/-- The lines of a generated field block. -/
theorem block_lines (o : GeneratorOptions) (p : FieldId × FieldSchema) :
    (schemaFieldNode o p).blockItems "field" =
      [fieldNode "name".toList (quotedNode p.1),
        fieldNode "type".toList (quotedNode (fieldTypeName p.2.fieldType))] ++
       (match p.2.allowedValues with
        | some vs => [fieldNode "allowed_values".toList (quotedListNode vs)]
        | none => []) ++
       [fieldNode "required".toList (flagNode p.2.isRequired)] := by
  cases h : p.2.allowedValues <;>
  · unfold Node.blockItems Node.childOfKind schemaFieldNode
    simp only [h]
    rfl

theorem find_name (o : GeneratorOptions) (p : FieldId × FieldSchema) :
    findFieldByName (schemaFieldNode o p) "name" = some (fieldNode "name".toList (quotedNode p.1)) := by
  unfold findFieldByName; rw [block_lines]; rfl

theorem find_type (o : GeneratorOptions) (p : FieldId × FieldSchema) :
    findFieldByName (schemaFieldNode o p) "type" =
      some (fieldNode "type".toList (quotedNode (fieldTypeName p.2.fieldType))) := by
  unfold findFieldByName; rw [block_lines]; rfl

theorem find_required (o : GeneratorOptions) (p : FieldId × FieldSchema) :
    findFieldByName (schemaFieldNode o p) "required" =
      some (fieldNode "required".toList (flagNode p.2.isRequired)) := by
  unfold findFieldByName; rw [block_lines]; cases p.2.allowedValues <;> rfl

theorem find_allowed (o : GeneratorOptions) (p : FieldId × FieldSchema) :
    findFieldByName (schemaFieldNode o p) "allowed_values" =
      p.2.allowedValues.map fun vs => fieldNode "allowed_values".toList (quotedListNode vs) := by
  unfold findFieldByName; rw [block_lines]; cases p.2.allowedValues <;> rfl

/-- A field of a schema that its text can express: no quotation marks at the ends, allowed values only on enums and
normalised as `FieldSchema::new_enum` leaves them. -/
def Expressible (env : Env) (p : FieldId × FieldSchema) : Prop :=
  Unquoted p.1 ∧ ∀ vs, p.2.allowedValues = some vs →
    p.2.fieldType = .enum ∧ ∀ v ∈ vs, Unquoted v ∧ normalizeEnum env v = v

theorem typeName_no_quote (t : FieldType) : Unquoted (fieldTypeName t) := by cases t <;> exact ⟨by decide, by decide⟩

theorem fieldValue_node {name : Str} {v : Node} (hv : v.kind = "value".toList) :
    fieldValue L source (fieldNode name v) = fromNode L source v := by
  unfold fieldValue
  rw [(childOfKind_field name v hv).2]

/-- Reading one generated field block. -/
theorem toSchemaField_node {p : FieldId × FieldSchema} (h : Expressible L.env p) (k : Nat) :
    toSchemaField L source k (schemaFieldNode o p) = .ok (p.1, { p.2 with order := k }) := by
  obtain ⟨hq, ha⟩ := h
  have h1 : stringField L source (schemaFieldNode o p) "name" = .ok p.1 := by
    unfold stringField; rw [find_name]; simp only
    rw [fieldValue_node rfl, fromNode_quoted hq]
  have h2 : stringField L source (schemaFieldNode o p) "type" = .ok (fieldTypeName p.2.fieldType) := by
    unfold stringField; rw [find_type]; simp only
    rw [fieldValue_node rfl, fromNode_quoted (typeName_no_quote _)]
  have h3 : requiredFlag L source (schemaFieldNode o p) = some p.2.isRequired := by
    unfold requiredFlag; rw [find_required]; simp only
    rw [fieldValue_node rfl, fromNode_flag]
  have hmode : (if p.2.isRequired then FieldMode.required else .optional) = p.2.fieldMode := by
    unfold FieldSchema.isRequired; cases p.2.fieldMode <;> rfl
  unfold toSchemaField
  rw [h1, h2]
  simp only [convert_typeName, h3, hmode]
  cases hal : p.2.allowedValues with
  | none =>
    have h4 : allowedValuesOf L source (schemaFieldNode o p) = some none := by
      unfold allowedValuesOf; rw [find_allowed, hal]; rfl
    rw [h4]
    have he : FieldSchema.new p.2.fieldType p.2.fieldMode k = { p.2 with order := k } := by
      unfold FieldSchema.new; rw [← hal]
    split <;> simp [he, hal]
  | some vs =>
    obtain ⟨ht, hvs⟩ := ha vs hal
    have h4 : allowedValuesOf L source (schemaFieldNode o p) = some (some vs) := by
      unfold allowedValuesOf; rw [find_allowed, hal]
      simp only [Option.map_some]
      rw [fieldValue_node rfl, fromNode_quotedList (fun v hv => (hvs v hv).1)]
      simp only [stringItems_map]
    rw [h4, if_pos ht]
    have hn : vs.map (normalizeEnum L.env) = vs := by
      conv => rhs; rw [← List.map_id vs]
      exact List.map_congr_left fun v hv => (hvs v hv).2
    simp only [FieldSchema.newEnum, hn, ht]

/-- The fields with the orders they get when they are read one after the other. -/
def numbered (k : Nat) : List (FieldId × FieldSchema) → List (FieldId × FieldSchema)
  | [] => []
  | p :: ps => (p.1, { p.2 with order := k }) :: numbered (k + 1) ps

theorem numbered_keys (k : Nat) (ps : List (FieldId × FieldSchema)) :
    (numbered k ps).map (·.1) = ps.map (·.1) := by
  induction ps generalizing k with
  | nil => rfl
  | cons p ps ih => simp only [numbered, List.map_cons, ih]

theorem numbered_sorted (k : Nat) (ps : List (FieldId × FieldSchema)) :
    (numbered k ps).Pairwise (fun a b => decide (a.2.order ≤ b.2.order) = true) ∧
      ∀ p ∈ numbered k ps, k ≤ p.2.order := by
  induction ps generalizing k with
  | nil => exact ⟨.nil, by simp [numbered]⟩
  | cons p ps ih =>
    obtain ⟨h1, h2⟩ := ih (k + 1)
    refine ⟨.cons (fun q hq => by have := h2 q hq; simp; omega) h1, ?_⟩
    intro q hq
    rcases List.mem_cons.1 hq with rfl | hq
    · exact Nat.le_refl _
    · have := h2 q hq; omega

theorem toSchemaFields_nodes {ps : List (FieldId × FieldSchema)} (h : ∀ p ∈ ps, Expressible L.env p)
    (s : EntitySchema) (k : Nat) (hn : (s.fields.map (·.1) ++ ps.map (·.1)).Nodup) :
    toSchemaFields L source s k (ps.map (schemaFieldNode o)) =
      .ok { s with fields := s.fields ++ numbered k ps } := by
  induction ps generalizing s k with
  | nil => simp [toSchemaFields, numbered]
  | cons p ps ih =>
    rw [List.map_cons, toSchemaFields, toSchemaField_node (h p (by simp))]
    simp only
    have hnew : p.1 ∉ s.fields.map (·.1) := by
      intro hm
      exact (List.nodup_append.1 hn).2.2 _ hm _ (by simp) rfl
    have hadd : (s.addFieldSchema p.1 { p.2 with order := k }).fields =
        s.fields ++ [(p.1, { p.2 with order := k })] := mapInsert_new hnew
    rw [ih (fun q hq => h q (by simp [hq]))]
    · rw [hadd]; simp only [numbered, List.append_assoc, List.singleton_append, EntitySchema.addFieldSchema]
    · rw [hadd]; simpa using hn

/-- The information a field carries beside its position. -/
def fieldInfo (p : FieldId × FieldSchema) : FieldId × FieldType × FieldMode × Option (List Str) :=
  (p.1, p.2.fieldType, p.2.fieldMode, p.2.allowedValues)

theorem numbered_info (k : Nat) (ps : List (FieldId × FieldSchema)) :
    (numbered k ps).map fieldInfo = ps.map fieldInfo := by
  induction ps generalizing k with
  | nil => rfl
  | cons p ps ih => simp only [numbered, List.map_cons, ih]; rfl

/-- C55: the text generated for a schema reads back as a schema of the same type with the same fields, the
same types, flags and allowed values, in the same order.  Missing: names with quotation marks at their
ends (`C55_quotation_mark`) and allowed values of other types than enum are lost (`C55_not_enum`). -/
theorem C55_schema_partial (ht : RegularCase L.cases) {s : EntitySchema} (hn : IsSnake L.cases s.entityType)
    (hk : (s.fields.map (·.1)).Nodup) (he : ∀ p ∈ s.fields, Expressible L.env p) :
    ∃ s', toSchema L source (schemaNode o s) = .ok s' ∧ s'.entityType = s.entityType ∧
      s'.orderedFields.map fieldInfo = s.orderedFields.map fieldInfo ∧
      s'.orderedFields.map (·.2.order) = List.range s.fields.length := by
  have hp : s.orderedFields.Perm s.fields := stableSort_perm _ _
  have hitems : schemaFields (schemaNode o s) = s.orderedFields.map (schemaFieldNode o) := by
    unfold schemaFields
    have hb : (schemaNode o s).blockItems "nested_block" = s.orderedFields.map (schemaFieldNode o) := by
      refine blockItems_fields _ _ _ _ _ _ _ _ ?_ ?_ ?_ ?_ ?_
      · decide
      · simp only [Node.kind]; decide
      · decide
      · decide
      · intro n hn
        obtain ⟨p, -, rfl⟩ := List.mem_map.1 hn
        rfl
    rw [hb]
    exact List.filter_eq_self.2 fun n hn => by obtain ⟨p, -, rfl⟩ := List.mem_map.1 hn; rfl
  have hread : toSchema L source (schemaNode o s) = .ok ⟨s.entityType, numbered 0 s.orderedFields⟩ := by
    unfold toSchema
    rw [show schemaName (schemaNode o s) = some s.entityType from rfl, hitems]
    simp only
    rw [toSchemaFields_nodes (fun p hp' => he p (hp.subset hp')) _ 0
      (by simpa [EntitySchema.new] using (hp.map (·.1)).nodup_iff.2 hk)]
    simp [EntitySchema.new, snake_fixed ht hn]
  have hsort : EntitySchema.orderedFields ⟨s.entityType, numbered 0 s.orderedFields⟩ = numbered 0 s.orderedFields :=
    stableSort_of_sorted (numbered_sorted 0 _).1
  refine ⟨_, hread, rfl, by rw [hsort, numbered_info], ?_⟩
  rw [hsort, ← hp.length_eq]
  have : ∀ (ps : List (FieldId × FieldSchema)) (k : Nat), (numbered k ps).map (·.2.order) = List.range' k ps.length := by
    intro ps
    induction ps with
    | nil => intro k; rfl
    | cons p ps ih => intro k; simp only [numbered, List.map_cons, ih, List.length_cons, List.range'_succ]
  rw [this, List.range_eq_range']

/-- C55: a quotation mark at the end of a field's name is lost. -/
theorem C55_quotation_mark :
    toSchema exLang [] (schemaNode .default ⟨"task".toList, [("a\"".toList, .new .string .required 0)]⟩) =
      .ok ⟨"task".toList, [("a".toList, .new .string .required 0)]⟩ := by
  rfl

/-- C55: allowed values of a field that is not an enum are lost. -/
theorem C55_not_enum :
    toSchema exLang [] (schemaNode .default ⟨"task".toList, [("a".toList, ⟨.string, .required, 0, some []⟩)]⟩) =
      .ok ⟨"task".toList, [("a".toList, .new .string .required 0)]⟩ := by
  rfl

example : IsSnake asciiTable exSchema.entityType ∧ (exSchema.fields.map (·.1)).Nodup ∧
    ∀ p ∈ exSchema.fields, Expressible exEnv p := by
  refine ⟨(C47_unchanged asciiTable_regular _).1 (by decide), by decide, ?_⟩
  have : exSchema.fields = [("title".toList, .new .string .required 0),
      ("state".toList, ⟨.enum, .optional, 1, some ["open".toList, "done".toList]⟩),
      ("notes".toList, .new .string .optional 100), ("created_at".toList, .new .dateTime .optional 101),
      ("updated_at".toList, .new .dateTime .optional 102)] := by decide
  rw [this]
  intro p hp
  simp only [List.mem_cons, List.not_mem_nil, or_false] at hp
  rcases hp with rfl | rfl | rfl | rfl | rfl
  · exact ⟨⟨by decide, by decide⟩, fun vs h => by cases h⟩
  · refine ⟨⟨by decide, by decide⟩, fun vs h => ?_⟩
    injection h with h
    subst h
    refine ⟨rfl, fun v hv => ?_⟩
    simp only [List.mem_cons, List.not_mem_nil, or_false] at hv
    rcases hv with rfl | rfl <;> exact ⟨⟨by decide, by decide⟩, by decide⟩
  · exact ⟨⟨by decide, by decide⟩, fun vs h => by cases h⟩
  · exact ⟨⟨by decide, by decide⟩, fun vs h => by cases h⟩
  · exact ⟨⟨by decide, by decide⟩, fun vs h => by cases h⟩

end Firm
