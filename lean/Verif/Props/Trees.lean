import Verif.Props.RoundTrip
import Verif.Props.Workspace

/-!
# The generated text and its syntax tree (C55, C67, C70), whole files (C81), schema fields (C82)
-/

namespace Firm
open Spec

variable {L : Lang} {o : GeneratorOptions} {source : Str}

/-! ## The trees of generated text -/

theorem indent_blank (i : IndentStyle) (k : Nat) : Blank (i.indentString k) := by
  intro c hc
  cases i with
  | spaces n => exact .inl (List.eq_of_mem_replicate hc)
  | tabs => exact .inr (.inr (List.eq_of_mem_replicate hc))

theorem blank_nil : Blank [] := fun c h => by cases h

theorem blank_cons {c : Char} {s : Str} (hc : c = ' ' ∨ c = '\n' ∨ c = '\t') (hs : Blank s) :
    Blank (c :: s) := by
  intro d hd
  rcases List.mem_cons.mp hd with rfl | hd
  · exact hc
  · exact hs d hd

theorem pieces_blank {w s : Str} {ns : List Node} (hw : Blank w) (h : Pieces s ns) : Pieces (w ++ s) ns := by
  cases h with
  | nil hb =>
    refine .nil fun c hc => ?_
    rcases List.mem_append.mp hc with h | h
    · exact hw c h
    · exact hb c h
  | @cons w' s' n ns' hb hp =>
    rw [← List.append_assoc, ← List.append_assoc]
    refine .cons (fun c hc => ?_) hp
    rcases List.mem_append.mp hc with h | h
    · exact hw c h
    · exact hb c h

theorem pieces_head {s : Str} {n : Node} {ns : List Node} (h : Pieces s ns) :
    Pieces (n.text ++ s) (n :: ns) := by
  have := Pieces.cons (n := n) blank_nil h
  simpa using this

theorem token_tree (t : String) : IsTree (tokenNode t) := .leaf

theorem token_text (t : String) : (tokenNode t).text = t.toList := rfl

theorem pieces_item {s : Str} {ns : List Node} (t : String) (h : Pieces s ns) :
    Pieces (t.toList ++ s) (tokenNode t :: ns) := pieces_head (n := tokenNode t) h

/-- The items of a block, one per line. -/
theorem pieces_lines {inner tail : Str} (hi : Blank inner) {rest : List Node} (ht : Pieces tail rest) :
    ∀ (items : List Node),
      Pieces ((items.flatMap fun n => inner ++ n.text ++ ['\n']) ++ tail) (items ++ rest)
  | [] => ht
  | n :: ns => by
    have ih := pieces_lines hi ht ns
    have h1 : Pieces (['\n'] ++ ((ns.flatMap fun n => inner ++ n.text ++ ['\n']) ++ tail)) (ns ++ rest) :=
      pieces_blank (blank_cons (.inr (.inl rfl)) blank_nil) ih
    have h2 := Pieces.cons (n := n) hi h1
    simpa [List.flatMap_cons, List.append_assoc] using h2

theorem block_tree {inner outer : Str} (hi : Blank inner) (ho : Blank outer) {items : List Node}
    (h : ∀ n ∈ items, IsTree n) : IsTree (blockNode inner outer items) := by
  unfold blockNode
  refine .node ?_ ?_
  · have h1 : Pieces (outer ++ ['}']) [tokenNode "}"] :=
      pieces_blank ho (pieces_item (s := []) "}" (.nil blank_nil))
    have h2 := pieces_lines hi h1 items
    have h3 : Pieces ('\n' :: ((items.flatMap fun n => inner ++ n.text ++ ['\n']) ++ (outer ++ ['}'])))
        (items ++ [tokenNode "}"]) := pieces_blank (blank_cons (.inr (.inl rfl)) blank_nil) h2
    have h4 := pieces_item "{" h3
    simpa [List.append_assoc] using h4
  · intro n hn
    simp only [List.cons_append, List.mem_cons, List.mem_append, List.not_mem_nil, or_false] at hn
    rcases hn with rfl | hn | rfl
    · exact .leaf
    · exact h n hn
    · exact .leaf

theorem field_tree {name : Str} {v : Node} (h : IsTree v) : IsTree (fieldNode name v) := by
  unfold fieldNode
  refine .node ?_ ?_
  · have h1 : Pieces (v.text ++ []) [v] := pieces_head (.nil blank_nil)
    have h2 : Pieces (' ' :: (v.text ++ [])) [v] := pieces_blank (blank_cons (.inl rfl) blank_nil) h1
    have h3 : Pieces (' ' :: ("=".toList ++ (' ' :: (v.text ++ [])))) [tokenNode "=", v] :=
      pieces_blank (blank_cons (.inl rfl) blank_nil) (pieces_item "=" h2)
    have h4 := pieces_head (n := Node.mk "field_name".toList name []) h3
    have e : (Node.mk "field_name".toList name []).text ++
        (' ' :: ("=".toList ++ (' ' :: (v.text ++ [])))) = name ++ " = ".toList ++ v.text := by
      simp [Node.text]
    rwa [e] at h4
  · intro n hn
    simp only [List.mem_cons, List.not_mem_nil, or_false] at hn
    rcases hn with rfl | rfl | rfl
    · exact .leaf
    · exact .leaf
    · exact h

theorem value_text (v : FieldValue) : (valueNode L o v).text = generateValue L o v := by
  cases v <;> simp [valueNode, Node.text]

theorem wrap_tree {k t : Str} {n : Node} (hn : n.text = t) (h : IsTree n) : IsTree (.mk k t [n]) := by
  refine .node ?_ ?_
  · have := pieces_head (n := n) (s := []) (.nil blank_nil)
    rw [hn, List.append_nil] at this
    exact this
  · intro m hm
    rw [List.mem_singleton.mp hm]; exact h

/-- The texts of the items after the first with the tokens in front of them. -/
def restTexts (ts : List Str) : Str := (ts.flatMap fun t => ", ".toList ++ t) ++ [']']

theorem join_rest (t : Str) (ts : List Str) :
    joinWith [',', ' '] (t :: ts) ++ [']'] = t ++ restTexts ts := by
  induction ts generalizing t with
  | nil => simp [joinWith, restTexts]
  | cons u us ih =>
    have := ih u
    simp only [joinWith, restTexts, List.flatMap_cons, List.append_assoc] at this ⊢
    rw [this]
    simp

theorem generateValues_eq (vs : List FieldValue) :
    generateValues L o vs = vs.map (generateValue L o) := by
  induction vs with
  | nil => rfl
  | cons v vs ih => rw [generateValues, ih]; rfl

theorem pieces_rest (vs : List FieldValue) :
    Pieces (restTexts (vs.map (generateValue L o))) (itemNodes L o [tokenNode ","] vs) := by
  induction vs with
  | nil => exact pieces_item (s := []) "]" (.nil blank_nil)
  | cons v vs ih =>
    have h1 := pieces_head (n := valueNode L o v) ih
    have h2 := pieces_item "," (pieces_blank (w := [' ']) (blank_cons (.inl rfl) blank_nil) h1)
    rw [value_text] at h2
    rw [itemNodes]
    simpa [restTexts] using h2

theorem pieces_list (vs : List FieldValue) :
    Pieces (generateValue L o (.list vs)) (tokenNode "[" :: itemNodes L o [] vs) := by
  rw [generateValue, generateValues_eq]
  cases vs with
  | nil => exact pieces_item "[" (pieces_item (s := []) "]" (.nil blank_nil))
  | cons v vs =>
    have h1 := pieces_item "[" (pieces_head (n := valueNode L o v) (pieces_rest (L := L) (o := o) vs))
    rw [value_text, ← join_rest] at h1
    rw [itemNodes]
    exact h1

mutual
/-- C67: the tree that a generated value is read from is a tree of the generated text. -/
theorem C67_tree : ∀ (v : FieldValue), IsTree (valueNode L o v)
  | .boolean _ => by rw [valueNode]; exact wrap_tree rfl .leaf; simp
  | .string _ => by rw [valueNode]; exact wrap_tree rfl .leaf; simp
  | .integer _ => by rw [valueNode]; exact wrap_tree rfl .leaf; simp
  | .float _ => by rw [valueNode]; exact wrap_tree rfl .leaf; simp
  | .currency _ _ => by rw [valueNode]; exact wrap_tree rfl .leaf; simp
  | .reference _ => by rw [valueNode]; exact wrap_tree rfl .leaf; simp
  | .dateTime _ => by rw [valueNode]; exact wrap_tree rfl .leaf; simp
  | .path _ => by rw [valueNode]; exact wrap_tree rfl .leaf; simp
  | .enum _ => by rw [valueNode]; exact wrap_tree rfl .leaf; simp
  | .list items => by
    rw [valueNode]
    refine wrap_tree rfl (.node (pieces_list items) ?_)
    intro n hn
    rcases List.mem_cons.mp hn with rfl | hn
    · exact .leaf
    · exact items_trees items [] (by simp) n hn
theorem items_trees : ∀ (vs : List FieldValue) (before : List Node), (∀ n ∈ before, IsTree n) →
    ∀ n ∈ itemNodes L o before vs, IsTree n
  | [], before, _ => by
    intro n hn
    rw [itemNodes, List.mem_singleton] at hn
    rw [hn]; exact .leaf
  | v :: vs, before, hb => by
    intro n hn
    rw [itemNodes] at hn
    rcases List.mem_append.mp hn with hn | hn
    · exact hb n hn
    rcases List.mem_cons.mp hn with rfl | hn
    · exact C67_tree v
    · exact items_trees vs [tokenNode ","]
        (fun n hn => by rw [List.mem_singleton.mp hn]; exact .leaf) n hn
end

/-- C67: that tree is the tree of the text that `generate_value` gives. -/
theorem C67_text (v : FieldValue) : (valueNode L o v).text = generateValue L o v := value_text v

theorem entityBlock_tree {ty id : Str} {b : Node} (h : IsTree b) : IsTree (entityBlock ty id b) := by
  unfold entityBlock
  refine .node ?_ ?_
  · have h1 : Pieces (' ' :: (b.text ++ [])) [b] :=
      pieces_blank (blank_cons (.inl rfl) blank_nil) (pieces_head (.nil blank_nil))
    have h2 : Pieces (' ' :: (id ++ (' ' :: (b.text ++ [])))) [.mk "entity_id".toList id [], b] :=
      pieces_blank (blank_cons (.inl rfl) blank_nil)
        (pieces_head (n := Node.mk "entity_id".toList id []) h1)
    have h3 := pieces_head (n := Node.mk "entity_type".toList ty []) h2
    have e : (Node.mk "entity_type".toList ty []).text ++ (' ' :: (id ++ (' ' :: (b.text ++ [])))) =
        ty ++ ' ' :: id ++ ' ' :: b.text := by simp [Node.text]
    rwa [e] at h3
  · intro n hn
    simp only [List.mem_cons, List.not_mem_nil, or_false] at hn
    rcases hn with rfl | rfl | rfl
    · exact .leaf
    · exact .leaf
    · exact h

/-- C70: the tree that a generated entity is read from is a tree of its text. -/
theorem C70_tree (e : Entity) : IsTree (entityNode L o e) := by
  refine entityBlock_tree (block_tree (indent_blank _ _) blank_nil ?_)
  intro n hn
  obtain ⟨p, -, rfl⟩ := List.mem_map.1 hn
  exact field_tree (C67_tree p.2)

/-- C70: that text is what `generate_entity` gives, without the line feed at its end. -/
theorem C70_text (e : Entity) : generateEntity L o e = (entityNode L o e).text ++ ['\n'] := by
  have h : ∀ (fs : List (FieldId × FieldValue)),
      (fs.flatMap fun p => o.indentStyle.indentString 1 ++ generateField L o p.1 p.2 ++ ['\n']) =
        (fs.map fun p => fieldNode p.1 (valueNode L o p.2)).flatMap
          fun n => o.indentStyle.indentString 1 ++ n.text ++ ['\n'] := by
    intro fs
    rw [List.flatMap_map]
    congr 1
    funext p
    have : (fieldNode p.1 (valueNode L o p.2)).text = p.1 ++ " = ".toList ++ (valueNode L o p.2).text := rfl
    rw [this, value_text, generateField]
  unfold generateEntity entityNode entityBlock blockNode
  rw [h]
  simp [Node.text]

/-! ## C81: whole files -/

theorem pieces_entities (sep : Str) (hs : Blank sep) (es : List Entity) :
    Pieces (es.flatMap fun e => sep ++ generateEntity L o e) (es.map (entityNode L o)) := by
  induction es with
  | nil => exact .nil blank_nil
  | cons e es ih =>
    have h1 := Pieces.cons (n := entityNode L o e) hs
      (pieces_blank (w := ['\n']) (blank_cons (.inr (.inl rfl)) blank_nil) ih)
    rw [List.flatMap_cons, C70_text, List.map_cons]
    simpa [List.append_assoc] using h1

/-- C81: the tree that a generated file is read from is a tree of its text. -/
theorem C81_tree (es : List Entity) : IsTree (fileNode L o es) := by
  unfold fileNode
  refine .node ?_ ?_
  · cases es with
    | nil => exact .nil blank_nil
    | cons e es =>
      have hsep : Blank (if o.blankLines then ['\n'] else []) := by
        split
        · exact blank_cons (.inr (.inl rfl)) blank_nil
        · exact blank_nil
      have h1 := pieces_head (n := entityNode L o e)
        (pieces_blank (w := ['\n']) (blank_cons (.inr (.inl rfl)) blank_nil)
          (pieces_entities (L := L) (o := o) _ hsep es))
      rw [generateDsl, generateRest, C70_text, List.map_cons]
      simpa [List.append_assoc] using h1
  · intro n hn
    obtain ⟨e, -, rfl⟩ := List.mem_map.1 hn
    exact C70_tree e

/-- C81: a generated file holds exactly its entities, in order. Entities whose ids and types are
normal and whose values read back are read back. Missing: other ids, types and values (`C81_capital`, C51, C52,
C67–C70). -/
theorem C81_file_partial (ht : RegularCase L.cases) (path : Str) {es : List Entity}
    (hn : ∀ e ∈ es, ∃ i, e.id = e.entityType ++ '.' :: i ∧ '.' ∉ e.entityType ∧ IsSnake L.cases e.id)
    (hv : ∀ e ∈ es, ∀ p ∈ e.fields, ReadsBack L o source p.2) :
    collectResults (toEntity L source) (SourceFile.entities ⟨fileNode L o es, path⟩) = .ok es := by
  have h1 : SourceFile.entities ⟨fileNode L o es, path⟩ = es.map (entityNode L o) := by
    show (es.map (entityNode L o)).filter _ = _
    refine List.filter_eq_self.2 fun n hn => ?_
    obtain ⟨e, -, rfl⟩ := List.mem_map.1 hn
    rfl
  rw [h1, collectResults_ok, List.map_map]
  refine List.map_congr_left fun e he => ?_
  obtain ⟨i, hi, hd, hsn⟩ := hn e he
  have h2 := C70_entity_partial (L := L) (o := o) (source := source) ht (id := i) (ty := e.entityType)
    (fields := e.fields) hd (hi ▸ hsn) (hv e he)
  rw [← hi] at h2
  exact h2

/-- C81 fails for types that are not lower case (as C70 does): the type changes. -/
theorem C81_capital :
    collectResults (toEntity exLang []) (SourceFile.entities
      ⟨fileNode exLang .default [⟨"mytask.a".toList, "MyTask".toList, []⟩], []⟩) =
        .ok [⟨"mytask.a".toList, "mytask".toList, []⟩] := by
  rfl

example : collectResults (toEntity exLang []) (SourceFile.entities
    ⟨fileNode exLang .default [⟨"a.x".toList, "a".toList, [("n".toList, .integer 1)]⟩], []⟩) =
      .ok [⟨"a.x".toList, "a".toList, [("n".toList, .integer 1)]⟩] :=
  C81_file_partial (L := exLang) asciiTable_regular [] (fun e he => by
      rw [List.mem_singleton.mp he]
      exact ⟨"x".toList, rfl, by decide, (C47_unchanged asciiTable_regular _).mp (by decide)⟩)
    (fun e he p hp => by
      rw [List.mem_singleton.mp he] at hp
      rw [List.mem_singleton.mp hp]
      exact ⟨.integer 1, rfl, rfl⟩)

example : collectResults (toEntity exLang []) (SourceFile.entities
    ⟨fileNode exLang .default [⟨"a.x".toList, "a".toList, [("n".toList, .integer 1)]⟩,
      ⟨"b.y".toList, "b".toList, [("t".toList, .boolean true), ("u".toList, .list [])]⟩], []⟩) =
      .ok [⟨"a.x".toList, "a".toList, [("n".toList, .integer 1)]⟩,
        ⟨"b.y".toList, "b".toList, [("t".toList, .boolean true), ("u".toList, .list [])]⟩] := by
  rfl

example : generateDsl exLang .default [⟨"a.x".toList, "a".toList, [("n".toList, .integer 1)]⟩,
    ⟨"b.y".toList, "b".toList, [("t".toList, .list [.boolean true, .boolean false])]⟩] =
    "a x {\n    n = 1\n}\n\nb y {\n    t = [true, false]\n}\n".toList := by decide +kernel

/-! ## C55: the trees of schemas -/

theorem pieces_quoted (vs : List Str) :
    Pieces (restTexts (vs.map fun v => '"' :: v ++ ['"'])) (quotedItems [tokenNode ","] vs) := by
  induction vs with
  | nil => exact pieces_item (s := []) "]" (.nil blank_nil)
  | cons v vs ih =>
    have h1 := pieces_head (n := quotedNode v) ih
    have h2 := pieces_item "," (pieces_blank (w := [' ']) (blank_cons (.inl rfl) blank_nil) h1)
    rw [quotedItems]
    simpa [restTexts, quotedNode, Node.text] using h2

theorem quoted_tree (s : Str) : IsTree (quotedNode s) := wrap_tree rfl .leaf

theorem quotedItems_trees : ∀ (vs : List Str) (before : List Node), (∀ n ∈ before, IsTree n) →
    ∀ n ∈ quotedItems before vs, IsTree n
  | [], before, _ => by
    intro n hn
    rw [quotedItems, List.mem_singleton] at hn
    rw [hn]; exact .leaf
  | v :: vs, before, hb => by
    intro n hn
    rw [quotedItems] at hn
    rcases List.mem_append.mp hn with hn | hn
    · exact hb n hn
    rcases List.mem_cons.mp hn with rfl | hn
    · exact quoted_tree v
    · exact quotedItems_trees vs [tokenNode ","]
        (fun n hn => by rw [List.mem_singleton.mp hn]; exact .leaf) n hn

theorem quotedList_tree (vs : List Str) : IsTree (quotedListNode vs) := by
  unfold quotedListNode
  refine wrap_tree rfl (.node ?_ ?_)
  · cases vs with
    | nil => exact pieces_item "[" (pieces_item (s := []) "]" (.nil blank_nil))
    | cons v vs =>
      have h1 := pieces_item "[" (pieces_head (n := quotedNode v) (pieces_quoted vs))
      have e : (quotedNode v).text = '"' :: v ++ ['"'] := rfl
      rw [e, ← join_rest (t := '"' :: v ++ ['"'])] at h1
      rw [quotedItems]
      exact h1
  · intro n hn
    rcases List.mem_cons.mp hn with rfl | hn
    · exact .leaf
    · exact quotedItems_trees vs [] (by simp) n hn

theorem nested_tree {ty : Str} {b : Node} (h : IsTree b) : IsTree (nestedNode ty b) := by
  unfold nestedNode
  refine .node ?_ ?_
  · have h1 : Pieces (' ' :: (b.text ++ [])) [b] :=
      pieces_blank (blank_cons (.inl rfl) blank_nil) (pieces_head (.nil blank_nil))
    have h2 := pieces_head (n := Node.mk "block_type".toList ty []) h1
    simpa [Node.text] using h2
  · intro n hn
    simp only [List.mem_cons, List.not_mem_nil, or_false] at hn
    rcases hn with rfl | rfl
    · exact .leaf
    · exact h

theorem schemaField_tree (p : FieldId × FieldSchema) : IsTree (schemaFieldNode o p) := by
  refine nested_tree (block_tree (indent_blank _ _) (indent_blank _ _) ?_)
  intro n hn
  rcases List.mem_append.mp hn with hn | hn
  · rcases List.mem_append.mp hn with hn | hn
    · simp only [List.mem_cons, List.not_mem_nil, or_false] at hn
      rcases hn with rfl | rfl
      · exact field_tree (quoted_tree _)
      · exact field_tree (quoted_tree _)
    · split at hn
      · rw [List.mem_singleton.mp hn]; exact field_tree (quotedList_tree _)
      · cases hn
  · rw [List.mem_singleton.mp hn]
    exact field_tree (wrap_tree rfl .leaf)

/-- C55: the tree that a generated schema is read from is a tree of its text. -/
theorem C55_tree (s : EntitySchema) : IsTree (schemaNode o s) := by
  have hb : IsTree (blockNode (o.indentStyle.indentString 1) [] (s.orderedFields.map (schemaFieldNode o))) := by
    refine block_tree (indent_blank _ _) blank_nil ?_
    intro n hn
    obtain ⟨p, -, rfl⟩ := List.mem_map.1 hn
    exact schemaField_tree p
  unfold schemaNode schemaBlock
  generalize blockNode (o.indentStyle.indentString 1) [] (s.orderedFields.map (schemaFieldNode o)) = b at hb
  refine .node ?_ ?_
  · have h1 : Pieces (' ' :: (b.text ++ [])) [b] :=
      pieces_blank (blank_cons (.inl rfl) blank_nil) (pieces_head (.nil blank_nil))
    have h2 := pieces_item "schema" (pieces_blank (w := [' ']) (blank_cons (.inl rfl) blank_nil)
      (pieces_head (n := Node.mk "schema_name".toList s.entityType []) h1))
    simpa [Node.text] using h2
  · intro n hn
    simp only [List.mem_cons, List.not_mem_nil, or_false] at hn
    rcases hn with rfl | rfl | rfl
    · exact .leaf
    · exact .leaf
    · exact hb

theorem schemaField_text (p : FieldId × FieldSchema) :
    generateSchemaField o p = o.indentStyle.indentString 1 ++ (schemaFieldNode o p).text ++ ['\n'] := by
  unfold generateSchemaField schemaFieldNode nestedNode blockNode
  cases p.2.allowedValues <;> cases p.2.isRequired <;>
    simp [Node.text, fieldNode, quotedNode, flagNode, quotedListNode]

/-- C55: that text is what `generate_schema` gives, without the line feed at its end. -/
theorem C55_text (s : EntitySchema) : generateSchema o s = (schemaNode o s).text ++ ['\n'] := by
  have h : ∀ (fs : List (FieldId × FieldSchema)), fs.flatMap (generateSchemaField o) =
      (fs.map (schemaFieldNode o)).flatMap fun n => o.indentStyle.indentString 1 ++ n.text ++ ['\n'] := by
    intro fs
    rw [List.flatMap_map]
    congr 1
    funext p
    exact schemaField_text p
  unfold generateSchema schemaNode schemaBlock blockNode
  rw [h]
  simp [Node.text]

/-! ## C82: the fields of a schema -/

theorem findField_line {n : Node} {name : String} {r : ValueResult} (h : HasLine L source n name r) :
    ∃ f, findFieldByName n name = some f ∧ fieldValue L source f = r := by
  obtain ⟨pre, f, post, h1, h2, h3, h4⟩ := h
  refine ⟨f, ?_, h4⟩
  unfold findFieldByName
  rw [h1, List.find?_append, List.find?_eq_none.mpr (by simpa using h3)]
  simp [h2]

theorem findField_noLine {n : Node} {name : String} (h : NoLine n name) :
    findFieldByName n name = none := by
  unfold findFieldByName
  exact List.find?_eq_none.mpr fun g hg => by simpa using h g hg

theorem stringField_line {n : Node} {name : String} {x : Str}
    (h : HasLine L source n name (.ok (.string x))) : stringField L source n name = .ok x := by
  obtain ⟨f, h1, h2⟩ := findField_line h
  unfold stringField
  rw [h1]
  simp only [h2]

/-- C82: a field block is read as declared: it has the name and type of its lines, and it is required
exactly if it has a line `required = true`; without such a line, it is optional. The lines may come
in any order, with other lines between them; of several lines with the same name the first counts. -/
theorem C82_field {n : Node} {x : Str} {ty : FieldType} (k : Nat)
    (hx : HasLine L source n "name" (.ok (.string x)))
    (ht : HasLine L source n "type" (.ok (.string (fieldTypeName ty)))) {b : Bool}
    (hr : (NoLine n "required" ∧ b = false) ∨ HasLine L source n "required" (.ok (.boolean b)))
    (ha : ty = .enum → NoLine n "allowed_values" ∨
      ∃ vs, HasLine L source n "allowed_values" (.ok (.list vs))) :
    ∃ fs, toSchemaField L source k n = .ok (x, fs) ∧ fs.fieldType = ty ∧
      (fs.isRequired = true ↔ b = true) ∧ fs.order = k ∧ (ty ≠ .enum → fs.allowedValues = none) := by
  have h3 : requiredFlag L source n = some b := by
    unfold requiredFlag
    rcases hr with ⟨hr, rfl⟩ | hr
    · rw [findField_noLine hr]
    · obtain ⟨f, h1, h2⟩ := findField_line hr
      rw [h1]; simp only [h2]
  have hreq : ∀ (fs : FieldSchema), fs.fieldMode = (if b then FieldMode.required else .optional) →
      (fs.isRequired = true ↔ b = true) := by
    intro fs h
    unfold FieldSchema.isRequired
    rw [h]
    cases b <;> simp
  unfold toSchemaField
  rw [stringField_line hx, stringField_line ht]
  simp only [convert_typeName, h3]
  by_cases he : ty = .enum
  · rw [if_pos he]
    have h4 : ∃ r, allowedValuesOf L source n = some r := by
      unfold allowedValuesOf
      rcases ha he with ha | ⟨vs, ha⟩
      · rw [findField_noLine ha]; exact ⟨_, rfl⟩
      · obtain ⟨f, h1, h2⟩ := findField_line ha
        rw [h1]; simp only [h2]; exact ⟨_, rfl⟩
    obtain ⟨r, hr4⟩ := h4
    rw [hr4]
    cases r with
    | none => exact ⟨_, rfl, rfl, hreq _ rfl, rfl, fun h => absurd he h⟩
    | some vs => exact ⟨_, rfl, he.symm, hreq _ rfl, rfl, fun h => absurd he h⟩
  · rw [if_neg he]
    exact ⟨_, rfl, rfl, hreq _ rfl, rfl, fun _ => rfl⟩

/-- C82: the allowed values of an enum are the listed texts, normalised. -/
theorem C82_allowed {n : Node} {x : Str} {vs : List Str} (k : Nat)
    (hx : HasLine L source n "name" (.ok (.string x)))
    (ht : HasLine L source n "type" (.ok (.string "enum".toList)))
    (hr : NoLine n "required" ∨ ∃ b, HasLine L source n "required" (.ok (.boolean b)))
    (ha : HasLine L source n "allowed_values" (.ok (.list (vs.map .string)))) :
    ∃ fs, toSchemaField L source k n = .ok (x, fs) ∧
      fs.allowedValues = some (vs.map (normalizeEnum L.env)) := by
  have h3 : ∃ b, requiredFlag L source n = some b := by
    unfold requiredFlag
    rcases hr with hr | ⟨b, hr⟩
    · rw [findField_noLine hr]; exact ⟨_, rfl⟩
    · obtain ⟨f, h1, h2⟩ := findField_line hr
      rw [h1]; simp only [h2]; exact ⟨_, rfl⟩
  obtain ⟨b, h3⟩ := h3
  have h4 : allowedValuesOf L source n = some (some vs) := by
    unfold allowedValuesOf
    obtain ⟨f, h1, h2⟩ := findField_line ha
    rw [h1]; simp only [h2, stringItems_map]
  unfold toSchemaField
  rw [stringField_line hx, stringField_line ht]
  simp only [show convertFieldType "enum".toList = .ok .enum from rfl, h3, if_true, h4]
  exact ⟨_, rfl, rfl⟩

theorem stringItems_some : ∀ {items : List ParsedValue} {vs : List Str}, stringItems items = some vs → items = vs.map .string
  | [], _, h => by cases h; rfl
  | .string s :: items, _, h => by
    rw [stringItems] at h
    cases hi : stringItems items with
    | none => rw [hi] at h; cases h
    | some ws => rw [hi] at h; cases h; rw [stringItems_some hi]; rfl
  | .boolean _ :: _, _, h | .integer _ :: _, _, h | .float _ :: _, _, h | .currency _ _ :: _, _, h
  | .entityRef _ _ :: _, _, h | .fieldRef _ _ _ :: _, _, h | .list _ :: _, _, h | .dateTime _ :: _, _, h | .path _ :: _, _, h | .enum _ :: _, _, h => by cases h

/-- C82: if what stands behind `allowed_values` is not a list of texts — a single text, or a list with anything
else in it — or there is no such line, the enum is not restricted, and the block is not rejected. -/
theorem C82_unrestricted {n : Node} {x : Str} (k : Nat)
    (hx : HasLine L source n "name" (.ok (.string x)))
    (ht : HasLine L source n "type" (.ok (.string "enum".toList)))
    (hr : NoLine n "required" ∨ ∃ b, HasLine L source n "required" (.ok (.boolean b)))
    (ha : NoLine n "allowed_values" ∨ ∃ v, HasLine L source n "allowed_values" (.ok v) ∧
      ∀ vs : List Str, v ≠ .list (vs.map .string)) :
    ∃ fs, toSchemaField L source k n = .ok (x, fs) ∧ fs.fieldType = .enum ∧ fs.allowedValues = none := by
  have h3 : ∃ b, requiredFlag L source n = some b := by
    unfold requiredFlag
    rcases hr with hr | ⟨b, hr⟩
    · rw [findField_noLine hr]; exact ⟨_, rfl⟩
    · obtain ⟨f, h1, h2⟩ := findField_line hr
      rw [h1]; simp only [h2]; exact ⟨_, rfl⟩
  obtain ⟨b, h3⟩ := h3
  have h4 : allowedValuesOf L source n = some none := by
    unfold allowedValuesOf
    rcases ha with ha | ⟨v, ha, hv⟩
    · rw [findField_noLine ha]
    · obtain ⟨f, h1, h2⟩ := findField_line ha
      rw [h1]
      simp only [h2]
      cases v with
      | list items =>
        cases hs : stringItems items with
        | none => simp only [hs]
        | some vs => exact absurd (by rw [stringItems_some hs]) (hv vs)
      | _ => rfl
  unfold toSchemaField
  rw [stringField_line hx, stringField_line ht]
  simp only [show convertFieldType "enum".toList = .ok .enum from rfl, h3, if_true, h4]
  exact ⟨_, rfl, rfl, rfl⟩

/-- C82: a block without a name, without a type or with an unknown type is rejected, and with it the
whole schema. -/
theorem C82_rejected {n : Node} (k : Nat) :
    (NoLine n "name" → toSchemaField L source k n = .error .missingFieldName) ∧
    (∀ x, HasLine L source n "name" (.ok (.string x)) → NoLine n "type" →
      toSchemaField L source k n = .error .missingFieldType) ∧
    (∀ x t, HasLine L source n "name" (.ok (.string x)) → HasLine L source n "type" (.ok (.string t)) →
      (∀ ty, t ≠ fieldTypeName ty) → toSchemaField L source k n = .error (.unknownFieldType t)) := by
  refine ⟨?_, ?_, ?_⟩
  · intro h
    unfold toSchemaField stringField
    rw [findField_noLine h]
    rfl
  · intro x hx h
    unfold toSchemaField
    rw [stringField_line hx]
    unfold stringField
    rw [findField_noLine h]
    rfl
  · intro x t hx ht hty
    unfold toSchemaField
    rw [stringField_line hx, stringField_line ht]
    have : convertFieldType t = .error (.unknownFieldType t) := by
      unfold convertFieldType
      have hne := fun ty => hty ty
      rw [if_neg (show t ≠ "boolean".toList from hne .boolean),
        if_neg (show t ≠ "string".toList from hne .string),
        if_neg (show t ≠ "integer".toList from hne .integer),
        if_neg (show t ≠ "float".toList from hne .float),
        if_neg (show t ≠ "currency".toList from hne .currency),
        if_neg (show t ≠ "reference".toList from hne .reference),
        if_neg (show t ≠ "list".toList from hne .list),
        if_neg (show t ≠ "datetime".toList from hne .dateTime),
        if_neg (show t ≠ "path".toList from hne .path),
        if_neg (show t ≠ "enum".toList from hne .enum)]
    simp only [this]

/-- C82: a line `required` with something else than a boolean makes the field optional. -/
theorem C82_not_boolean {n : Node} {x : Str} {ty : FieldType} (k : Nat) (hty : ty ≠ .enum)
    (hx : HasLine L source n "name" (.ok (.string x)))
    (ht : HasLine L source n "type" (.ok (.string (fieldTypeName ty)))) {v : ParsedValue}
    (hr : HasLine L source n "required" (.ok v)) (hv : ∀ b, v ≠ .boolean b) :
    toSchemaField L source k n = .ok (x, .new ty .optional k) := by
  have h3 : requiredFlag L source n = some false := by
    unfold requiredFlag
    obtain ⟨f, h1, h2⟩ := findField_line hr
    rw [h1]
    simp only [h2]
    cases v <;> first | rfl | exact absurd rfl (hv _)
  unfold toSchemaField
  rw [stringField_line hx, stringField_line ht]
  simp only [convert_typeName, h3, if_neg hty]
  rfl

theorem filter_drop {α : Type} (p q : α → Bool) {a x c : α} {pre post : List α} (h : q x = false) :
    ((a :: (pre ++ x :: post) ++ [c]).filter p).filter q =
      ((a :: (pre ++ post) ++ [c]).filter p).filter q := by
  rw [List.filter_filter, List.filter_filter]
  simp [List.filter_append, List.filter_cons, h]

/-- C82: nested blocks of other types than `field` change nothing. -/
theorem C82_other_blocks {name inner outer ty : Str} {pre post : List Node} {b : Node}
    (hty : ty ≠ "field".toList) :
    toSchema L source (schemaBlock name (blockNode inner outer (pre ++ nestedNode ty b :: post))) =
      toSchema L source (schemaBlock name (blockNode inner outer (pre ++ post))) := by
  have hf : ∀ items, schemaFields (schemaBlock name (blockNode inner outer items)) =
      ((tokenNode "{" :: items ++ [tokenNode "}"]).filter fun c => c.kind = "nested_block".toList).filter
        isFieldBlock := fun _ => rfl
  have hn : isFieldBlock (nestedNode ty b) = false := by
    show decide (ty = "field".toList) = false
    simpa using hty
  unfold toSchema
  rw [show schemaName (schemaBlock name (blockNode inner outer (pre ++ nestedNode ty b :: post))) = some name from rfl,
    show schemaName (schemaBlock name (blockNode inner outer (pre ++ post))) = some name from rfl]
  have he : schemaFields (schemaBlock name (blockNode inner outer (pre ++ nestedNode ty b :: post))) =
      schemaFields (schemaBlock name (blockNode inner outer (pre ++ post))) := by
    rw [hf, hf]
    exact filter_drop _ _ hn
  rw [he]

/-- A field block: `name = "a"`, `type = "integer"`. -/
def exFieldBlock : Node :=
  nestedNode "field".toList (blockNode [] [] [fieldNode "type".toList (quotedNode "integer".toList),
    fieldNode "name".toList (quotedNode "a".toList)])

example : HasLine exLang [] exFieldBlock "name" (.ok (.string "a".toList)) ∧
    HasLine exLang [] exFieldBlock "type" (.ok (.string (fieldTypeName .integer))) ∧
    NoLine exFieldBlock "required" := by
  refine ⟨⟨[fieldNode "type".toList (quotedNode "integer".toList)], _, [], rfl, rfl, ?_, rfl⟩,
    ⟨[], _, [fieldNode "name".toList (quotedNode "a".toList)], rfl, rfl, by simp, rfl⟩, ?_⟩
  · intro m hm
    rw [List.mem_singleton.mp hm]; decide
  · intro m hm
    have : m ∈ [fieldNode "type".toList (quotedNode "integer".toList),
      fieldNode "name".toList (quotedNode "a".toList)] := hm
    simp only [List.mem_cons, List.not_mem_nil, or_false] at this
    rcases this with rfl | rfl <;> decide
/-- An enum whose `allowed_values` is a single text: `name = "a"`, `type = "enum"`, `allowed_values = "x"`. -/
def exEnumBlock : Node :=
  nestedNode "field".toList (blockNode [] [] [fieldNode "name".toList (quotedNode "a".toList),
    fieldNode "type".toList (quotedNode "enum".toList), fieldNode "allowed_values".toList (quotedNode "x".toList)])

example : ∃ fs, toSchemaField exLang [] 3 exEnumBlock = .ok ("a".toList, fs) ∧ fs.fieldType = .enum ∧
    fs.allowedValues = none := by
  refine C82_unrestricted 3 ⟨[], _, _, rfl, rfl, by simp, rfl⟩
    ⟨[fieldNode "name".toList (quotedNode "a".toList)], _, _, rfl, rfl, ?_, rfl⟩ (.inl ?_)
    (.inr ⟨.string "x".toList, ⟨[fieldNode "name".toList (quotedNode "a".toList), fieldNode "type".toList (quotedNode "enum".toList)],
      _, [], rfl, rfl, ?_, rfl⟩, nofun⟩)
  · intro m hm
    rw [List.mem_singleton.mp hm]; decide
  · intro m hm
    have : m ∈ [fieldNode "name".toList (quotedNode "a".toList),
      fieldNode "type".toList (quotedNode "enum".toList), fieldNode "allowed_values".toList (quotedNode "x".toList)] := hm
    simp only [List.mem_cons, List.not_mem_nil, or_false] at this
    rcases this with rfl | rfl | rfl <;> decide
  · intro m hm
    simp only [List.mem_cons, List.not_mem_nil, or_false] at hm
    rcases hm with rfl | rfl <;> decide

example : toSchemaField exLang [] 3 exFieldBlock = .ok ("a".toList, .new .integer .optional 3) := by rfl

end Firm
