import Verif.Spec.Sources
import Verif.Spec.Workspace
import Verif.Props.Trees
import Verif.Props.Mcp

/-!
# C121, C122: what counts in a source file
-/

namespace Firm

open Spec

theorem kind_essence : ∀ n : Node, (essence n).kind = n.kind
  | .mk k t cs => by
    rw [essence]
    split
    · rfl
    · split <;> rfl

theorem find_essences {k : Str} (hk : k ∈ carrying) : ∀ cs : List Node,
    (essences cs).find? (fun c => c.kind = k) = (cs.find? fun c => c.kind = k).map essence
  | [] => by rw [essences]; rfl
  | n :: ns => by
    rw [essences]
    by_cases h : n.kind = k
    · rw [if_pos (h ▸ hk), List.find?_cons_of_pos (by simpa [kind_essence] using h),
        List.find?_cons_of_pos (by simpa using h)]; rfl
    · rw [List.find?_cons_of_neg (by simpa using h)]
      split
      · rw [List.find?_cons_of_neg (by simpa [kind_essence] using h)]
        exact find_essences hk ns
      · exact find_essences hk ns

theorem filter_essences {k : Str} (hk : k ∈ carrying) : ∀ cs : List Node,
    (essences cs).filter (fun c => c.kind = k) = (cs.filter fun c => c.kind = k).map essence
  | [] => by rw [essences]; rfl
  | n :: ns => by
    rw [essences]
    by_cases h : n.kind = k
    · rw [if_pos (h ▸ hk), List.filter_cons_of_pos (by simpa [kind_essence] using h),
        List.filter_cons_of_pos (by simpa using h), filter_essences hk ns]; rfl
    · rw [List.filter_cons_of_neg (by simpa using h)]
      split
      · rw [List.filter_cons_of_neg (by simpa [kind_essence] using h)]
        exact filter_essences hk ns
      · exact filter_essences hk ns

/-- Nodes that are neither names nor values. -/
theorem children_essence {n : Node} (h1 : n.kind ∉ naming) (h2 : n.kind ≠ "value".toList) :
    (essence n).children = essences n.children := by
  cases n with
  | mk k t cs =>
    change k ∉ _ at h1
    change k ≠ _ at h2
    rw [essence, if_neg h1, if_neg h2]; rfl

theorem text_essence {n : Node} (h : n.kind ∈ naming) : (essence n).text = n.text := by
  cases n with
  | mk k t cs =>
    change k ∈ _ at h
    rw [essence, if_pos h]; rfl

theorem child_essence {n : Node} (kind : String) (h1 : n.kind ∉ naming) (h2 : n.kind ≠ "value".toList)
    (hk : kind.toList ∈ carrying) :
    (essence n).childOfKind kind = (n.childOfKind kind).map essence := by
  rw [Node.childOfKind, children_essence h1 h2, find_essences hk, Node.childOfKind]

theorem childOfKind_kind {n c : Node} {kind : String} (h : n.childOfKind kind = some c) :
    c.kind = kind.toList := by
  have := List.find?_some h
  simpa using this

theorem nameOf_essence {n : Node} (kind : String) (h1 : n.kind ∉ naming)
    (h2 : n.kind ≠ "value".toList) (hk : kind.toList ∈ carrying) (hn : kind.toList ∈ naming) :
    ((essence n).childOfKind kind).map Node.text = (n.childOfKind kind).map Node.text := by
  rw [child_essence kind h1 h2 hk, Option.map_map]
  cases h : n.childOfKind kind with
  | none => rfl
  | some c =>
    have := childOfKind_kind h
    simp only [Option.map_some, Function.comp_apply]
    rw [text_essence (this ▸ hn)]

mutual
theorem fromNode_essence (L : Lang) (source : Str) : ∀ n : Node, n.kind = "value".toList →
    fromNode L source (essence n) = fromNode L source n
  | .mk k t cs, h => by
    change k = _ at h
    subst h
    rw [essence, if_neg (by decide), if_pos rfl]
    cases cs with
    | nil => rw [valueEssence, fromNode, fromNode]
    | cons c cs =>
      obtain ⟨hk, ht, items⟩ := c
      by_cases hl : hk = "list".toList
      · subst hl
        rw [valueEssence, if_pos rfl, fromNode, if_pos rfl, fromNode, if_pos rfl, fromItems_essence L source items]
      · rw [valueEssence, if_neg hl, valueText, if_neg hl, fromNode, if_neg hl, fromNode, if_neg hl]
theorem fromItems_essence (L : Lang) (source : Str) : ∀ ns : List Node,
    fromItems L source (essences ns) = fromItems L source ns
  | [] => by rw [essences]
  | n :: ns => by
    rw [essences]
    by_cases h : n.kind = "value".toList
    · rw [if_pos (h ▸ by decide), fromItems, kind_essence, if_pos h, fromNode_essence L source n h,
        fromItems_essence L source ns]
      conv => rhs; rw [fromItems, if_pos h]
    · conv => rhs; rw [fromItems, if_neg h]
      split
      · rw [fromItems, kind_essence, if_neg h, fromItems_essence L source ns]
      · exact fromItems_essence L source ns
end

theorem fieldName_essence {n : Node} (h : n.kind = "field".toList) : fieldName (essence n) = fieldName n :=
  nameOf_essence "field_name" (h ▸ by decide) (h ▸ by decide) (by decide) (by decide)

theorem fieldValue_essence (L : Lang) (source : Str) {n : Node} (h : n.kind = "field".toList) :
    fieldValue L source (essence n) = fieldValue L source n := by
  rw [fieldValue, child_essence "value" (h ▸ by decide) (h ▸ by decide) (by decide), fieldValue]
  cases hc : n.childOfKind "value" with
  | none => rfl
  | some v => exact fromNode_essence L source v (childOfKind_kind hc)

theorem blockItems_essence {n : Node} (kind : String) (h1 : n.kind ∉ naming)
    (h2 : n.kind ≠ "value".toList) (hk : kind.toList ∈ carrying) :
    (essence n).blockItems kind = (n.blockItems kind).map essence := by
  rw [Node.blockItems, child_essence "block" h1 h2 (by decide), Node.blockItems]
  cases hc : n.childOfKind "block" with
  | none => rfl
  | some b =>
    have hb := childOfKind_kind hc
    simp only [Option.map_some]
    rw [children_essence (hb ▸ by decide) (hb ▸ by decide), filter_essences hk]

theorem blockItems_kind {n c : Node} {kind : String} (h : c ∈ n.blockItems kind) :
    c.kind = kind.toList := by
  rw [Node.blockItems] at h
  split at h
  · cases h
  · simpa using (List.mem_filter.1 h).2

theorem collectResults_map {α β ε : Type} {f g : α → Except ε β} {h : α → α} : ∀ {l : List α},
    (∀ x ∈ l, f (h x) = g x) → collectResults f (l.map h) = collectResults g l
  | [], _ => rfl
  | x :: xs, hx => by
    rw [List.map_cons, collectResults, collectResults, hx x List.mem_cons_self,
      collectResults_map fun y hy => hx y (List.mem_cons_of_mem _ hy)]

theorem toEntity_essence (L : Lang) (source : Str) {n : Node} (h : n.kind = "entity_block".toList) :
    toEntity L source (essence n) = toEntity L source n := by
  have hn : n.kind ∉ naming := h ▸ by decide
  have hv : n.kind ≠ "value".toList := h ▸ by decide
  rw [toEntity, toEntity, entityTypeOf, entityIdOf, entityFields,
    nameOf_essence "entity_type" hn hv (by decide) (by decide),
    nameOf_essence "entity_id" hn hv (by decide) (by decide),
    blockItems_essence "field" hn hv (by decide), collectResults_map (g := toField L source)]
  · rfl
  · intro f hf
    have := blockItems_kind hf
    rw [toField, toField, fieldName_essence this, fieldValue_essence L source this]

theorem findField_essence {n : Node} (name : String) (h1 : n.kind ∉ naming)
    (h2 : n.kind ≠ "value".toList) :
    findFieldByName (essence n) name = (findFieldByName n name).map essence := by
  rw [findFieldByName, blockItems_essence "field" h1 h2 (by decide), findFieldByName]
  have : ∀ l : List Node, (∀ f ∈ l, f.kind = "field".toList) →
      (l.map essence).find? (fun f => fieldName f = some name.toList) =
        (l.find? fun f => fieldName f = some name.toList).map essence := by
    intro l
    induction l with
    | nil => intro _; rfl
    | cons f l ih =>
      intro hl
      have hf := fieldName_essence (hl f List.mem_cons_self)
      rw [List.map_cons, List.find?_cons, List.find?_cons, hf]
      split
      · rfl
      · exact ih fun g hg => hl g (List.mem_cons_of_mem _ hg)
  exact this _ fun f hf => blockItems_kind hf

theorem findField_kind {n f : Node} {name : String} (h : findFieldByName n name = some f) :
    f.kind = "field".toList := blockItems_kind (List.mem_of_find?_eq_some h)

theorem toSchemaField_essence (L : Lang) (source : Str) (k : Nat) {n : Node}
    (h : n.kind = "nested_block".toList) :
    toSchemaField L source k (essence n) = toSchemaField L source k n := by
  have hn : n.kind ∉ naming := h ▸ by decide
  have hv : n.kind ≠ "value".toList := h ▸ by decide
  have hs : ∀ name, stringField L source (essence n) name = stringField L source n name := by
    intro name
    rw [stringField, findField_essence name hn hv, stringField]
    cases hf : findFieldByName n name with
    | none => rfl
    | some f => simp only [Option.map_some]; rw [fieldValue_essence L source (findField_kind hf)]
  have hr : requiredFlag L source (essence n) = requiredFlag L source n := by
    rw [requiredFlag, findField_essence _ hn hv, requiredFlag]
    cases hf : findFieldByName n "required" with
    | none => rfl
    | some f => simp only [Option.map_some]; rw [fieldValue_essence L source (findField_kind hf)]
  have ha : allowedValuesOf L source (essence n) = allowedValuesOf L source n := by
    rw [allowedValuesOf, findField_essence _ hn hv, allowedValuesOf]
    cases hf : findFieldByName n "allowed_values" with
    | none => rfl
    | some f => simp only [Option.map_some]; rw [fieldValue_essence L source (findField_kind hf)]
  rw [toSchemaField, hs, hs, hr, ha, toSchemaField]

theorem toSchemaFields_essence (L : Lang) (source : Str) : ∀ (ns : List Node) (s : EntitySchema) (k : Nat),
    (∀ n ∈ ns, n.kind = "nested_block".toList) →
    toSchemaFields L source s k (ns.map essence) = toSchemaFields L source s k ns
  | [], _, _, _ => rfl
  | n :: ns, s, k, h => by
    rw [List.map_cons, toSchemaFields, toSchemaFields,
      toSchemaField_essence L source k (h n List.mem_cons_self)]
    split
    · rfl
    · exact toSchemaFields_essence L source ns _ _ fun m hm => h m (List.mem_cons_of_mem _ hm)

theorem schemaFields_essence {n : Node} (h : n.kind = "schema_block".toList) :
    schemaFields (essence n) = (schemaFields n).map essence := by
  rw [schemaFields, blockItems_essence "nested_block" (h ▸ by decide) (h ▸ by decide) (by decide),
    schemaFields, List.filter_map]
  congr 1
  apply List.filter_congr
  intro c hc
  have hk := blockItems_kind hc
  rw [Function.comp_apply, isFieldBlock, child_essence "block_type" (hk ▸ by decide) (hk ▸ by decide)
    (by decide), isFieldBlock]
  cases ht : c.childOfKind "block_type" with
  | none => rfl
  | some t =>
    simp only [Option.map_some]
    rw [text_essence (childOfKind_kind ht ▸ by decide)]

theorem toSchema_essence (L : Lang) (source : Str) {n : Node} (h : n.kind = "schema_block".toList) :
    toSchema L source (essence n) = toSchema L source n := by
  rw [toSchema, schemaName, nameOf_essence "schema_name" (h ▸ by decide) (h ▸ by decide) (by decide)
    (by decide), toSchema, schemaFields_essence h]
  change (match schemaName n with | none => _ | some name => _) = _
  cases schemaName n with
  | none => rfl
  | some name => exact toSchemaFields_essence L source _ _ _ fun c hc =>
      blockItems_kind (List.mem_filter.1 hc).1

/-! ## C121 -/

theorem essences_append : ∀ a b : List Node, essences (a ++ b) = essences a ++ essences b
  | [], b => by rw [essences]; rfl
  | n :: a, b => by
    rw [List.cons_append, essences, essences, essences_append a b]
    split <;> rfl

/-- C121: a node that carries nothing (a comment, a bracket) may be left out of any sequence of nodes. -/
theorem C121_left_out {c : Node} (hc : c.kind ∉ carrying) (pre post : List Node) :
    essences (pre ++ c :: post) = essences (pre ++ post) := by
  rw [essences_append, essences_append, essences, if_neg hc]

/-- C121: a change within a child that keeps what counts of it keeps what counts of the whole. -/
theorem C121_within {c c' : Node} (hk : c.kind = c'.kind) (h : essence c = essence c')
    (pre post : List Node) : essences (pre ++ c :: post) = essences (pre ++ c' :: post) := by
  rw [essences_append, essences_append, essences, essences, hk, h]

/-- C121: … also if the nodes are those of a block, whatever the text between them. -/
theorem C121_block {k : Str} (h1 : k ∉ naming) (h2 : k ≠ "value".toList) (t t' : Str)
    {cs cs' : List Node} (h : essences cs = essences cs') : essence (.mk k t cs) = essence (.mk k t' cs') := by
  rw [essence, essence, if_neg h1, if_neg h2, h, if_neg h1, if_neg h2]

/-- C121: … or those of a list. -/
theorem C121_list (t t' lt lt' : Str) {cs cs' : List Node} (more more' : List Node)
    (h : essences cs = essences cs') :
    essence (.mk "value".toList t (.mk "list".toList lt cs :: more)) =
      essence (.mk "value".toList t' (.mk "list".toList lt' cs' :: more')) := by
  rw [essence, essence, if_neg (by decide), if_pos rfl, if_neg (by decide), if_pos rfl, valueEssence,
    valueEssence, if_pos rfl, if_pos rfl, valueText, valueText, if_pos rfl, if_pos rfl, h]

theorem collectResults_same {α β ε : Type} (f : α → Except ε β) (h : α → α) {l l' : List α}
    (hl : ∀ x ∈ l, f (h x) = f x) (hl' : ∀ x ∈ l', f (h x) = f x) (e : l.map h = l'.map h) :
    collectResults f l = collectResults f l' := by
  rw [← collectResults_map hl, ← collectResults_map hl', e]

theorem entities_same {f g : SourceFile} (h : SaysTheSame f g) :
    f.entities.map essence = g.entities.map essence := by
  rw [SourceFile.entities, SourceFile.entities, ← filter_essences (by decide),
    ← filter_essences (by decide), h.2]

theorem schemas_same {f g : SourceFile} (h : SaysTheSame f g) :
    f.schemas.map essence = g.schemas.map essence := by
  rw [SourceFile.schemas, SourceFile.schemas, ← filter_essences (by decide),
    ← filter_essences (by decide), h.2]

theorem mem_entities_kind {f : SourceFile} {n : Node} (h : n ∈ f.entities) :
    n.kind = "entity_block".toList := of_decide_eq_true (List.mem_filter.1 h).2

theorem mem_schemas_kind {f : SourceFile} {n : Node} (h : n ∈ f.schemas) :
    n.kind = "schema_block".toList := of_decide_eq_true (List.mem_filter.1 h).2

theorem addSchemas_essence (L : Lang) (path rel : Str) : ∀ (ns : List Node)
    (m : List (EntityType × EntitySchema)), (∀ n ∈ ns, n.kind = "schema_block".toList) →
    addSchemas L path rel m (ns.map essence) = addSchemas L path rel m ns
  | [], _, _ => rfl
  | n :: ns, m, h => by
    have hn := toSchema_essence L rel (h n List.mem_cons_self)
    have ih := fun m => addSchemas_essence L path rel ns m fun x hx => h x (List.mem_cons_of_mem _ hx)
    rw [List.map_cons, addSchemas, addSchemas, hn]
    simp only [ih]

theorem schemaPass_same (L : Lang) {w w' : Workspace} (h : SameWorkspaces w w') :
    ∀ m, schemaPass L m w = schemaPass L m w' := by
  induction h with
  | nil => intro m; rfl
  | @cons p q w w' hp _ ih =>
    intro m
    obtain ⟨path, f⟩ := p
    obtain ⟨path', g⟩ := q
    obtain ⟨rfl, hs⟩ := hp
    rw [schemaPass, schemaPass, ← addSchemas_essence L path f.rel f.schemas m fun n hn => mem_schemas_kind hn,
      ← addSchemas_essence L path g.rel g.schemas m fun n hn => mem_schemas_kind hn, schemas_same hs,
      hs.1]
    simp only [ih]

theorem entityPass_same (L : Lang) (m : List (EntityType × EntitySchema)) {w w' : Workspace}
    (h : SameWorkspaces w w') : entityPass L m w = entityPass L m w' := by
  induction h with
  | nil => rfl
  | @cons p q w w' hp _ ih =>
    obtain ⟨path, f⟩ := p
    obtain ⟨path', g⟩ := q
    obtain ⟨rfl, hs⟩ := hp
    have hc : ∀ n : Node, n.kind = "entity_block".toList →
        checkEntity L m path f.rel (essence n) = checkEntity L m path f.rel n := fun n hn => by
      rw [checkEntity, toEntity_essence L f.rel hn, checkEntity]
    rw [entityPass, entityPass, ih, ← hs.1, collectResults_same (checkEntity L m path f.rel) essence
      (fun n hn => hc n (mem_entities_kind hn)) (fun n hn => hc n (mem_entities_kind hn))
      (entities_same hs)]

/-- C121: two workspaces whose files say the same are built into the same entities and schemas, or fail
with the same error. -/
theorem C121_build (L : Lang) {w w' : Workspace} (h : SameWorkspaces w w') : w.build L = w'.build L := by
  rw [Workspace.build, Workspace.build, schemaPass_same L h]
  cases schemaPass L [] w' with
  | error e => rfl
  | ok m => simp only [entityPass_same L m h]

theorem any_essence {P Q : Node → Bool} : ∀ {l l' : List Node}, (∀ n ∈ l, Q (essence n) = P n) →
    (∀ n ∈ l', Q (essence n) = P n) → l.map essence = l'.map essence → l.any P = l'.any P := by
  intro l l' h h' e
  have : ∀ l : List Node, (∀ n ∈ l, Q (essence n) = P n) → l.any P = (l.map essence).any Q := by
    intro l hl
    induction l with
    | nil => rfl
    | cons n l ih =>
      rw [List.any_cons, List.map_cons, List.any_cons, hl n List.mem_cons_self,
        ih fun x hx => hl x (List.mem_cons_of_mem _ hx)]
  rw [this l h, this l' h', e]

/-- C121: … and entities and schemas are found in the same files. -/
theorem C121_found {w w' : Workspace} (h : SameWorkspaces w w') (type id : Str) :
    w.findEntitySource type id = w'.findEntitySource type id ∧
      w.findSchemaSource type = w'.findSchemaSource type := by
  constructor
  · rw [Workspace.findEntitySource, Workspace.findEntitySource]
    induction h with
    | nil => rfl
    | @cons p q w w' hp _ ih =>
      have he : p.2.entities.any (fun n => decide (entityTypeOf n = some type) &&
          decide (entityIdOf n = some id)) = q.2.entities.any (fun n =>
          decide (entityTypeOf n = some type) && decide (entityIdOf n = some id)) := by
        have hn : ∀ n : Node, n.kind = "entity_block".toList →
            (decide (entityTypeOf (essence n) = some type) && decide (entityIdOf (essence n) = some id)) =
              (decide (entityTypeOf n = some type) && decide (entityIdOf n = some id)) := by
          intro n hk
          rw [entityTypeOf, entityIdOf, nameOf_essence "entity_type" (hk ▸ by decide) (hk ▸ by decide)
            (by decide) (by decide), nameOf_essence "entity_id" (hk ▸ by decide) (hk ▸ by decide)
            (by decide) (by decide)]
          rfl
        exact any_essence (Q := fun n => decide (entityTypeOf n = some type) &&
            decide (entityIdOf n = some id)) (fun n hn' => hn n (mem_entities_kind hn'))
          (fun n hn' => hn n (mem_entities_kind hn')) (entities_same hp.2)
      rw [List.find?_cons, List.find?_cons, he]
      split
      · rw [Option.map_some, Option.map_some, hp.1]
      · exact ih
  · rw [Workspace.findSchemaSource, Workspace.findSchemaSource]
    induction h with
    | nil => rfl
    | @cons p q w w' hp _ ih =>
      have he : p.2.schemas.any (fun n => decide (schemaName n = some type)) =
          q.2.schemas.any (fun n => decide (schemaName n = some type)) := by
        have hn : ∀ n : Node, n.kind = "schema_block".toList →
            decide (schemaName (essence n) = some type) = decide (schemaName n = some type) := by
          intro n hk
          rw [schemaName, nameOf_essence "schema_name" (hk ▸ by decide) (hk ▸ by decide) (by decide)
            (by decide)]
          rfl
        exact any_essence (Q := fun n => decide (schemaName n = some type))
          (fun n hn' => hn n (mem_schemas_kind hn'))
          (fun n hn' => hn n (mem_schemas_kind hn')) (schemas_same hp.2)
      rw [List.find?_cons, List.find?_cons, he]
      split
      · rw [Option.map_some, Option.map_some, hp.1]
      · exact ih

/-! ## C122 -/

/-- C122 is false: whatever a file contains, text that the grammar does not understand can stand between
its blocks without anybody being told. -/
theorem C122_silent (L : Lang) (before after : Workspace) (path rel text : Str) (pre post : List Node)
    (junk : Str) (parts : List Node) :
    Broken ⟨.mk "source_file".toList text (pre ++ .mk "ERROR".toList junk parts :: post), rel⟩ ∧
    Workspace.build L (before ++ (path, ⟨.mk "source_file".toList text
        (pre ++ .mk "ERROR".toList junk parts :: post), rel⟩) :: after) =
      Workspace.build L (before ++ (path, ⟨.mk "source_file".toList text (pre ++ post), rel⟩) :: after) := by
  refine ⟨⟨_, .under (List.mem_append_right _ List.mem_cons_self) (.here _), rfl⟩, C121_build L ?_⟩
  have hr : ∀ w : Workspace, SameWorkspaces w w := fun w =>
    List.forall₂_same.2 fun p _ => ⟨rfl, rfl, rfl⟩
  refine List.rel_append (hr before) (.cons ⟨rfl, rfl, ?_⟩ (hr after))
  exact C121_left_out (c := .mk "ERROR".toList junk parts) (show "ERROR".toList ∉ carrying by decide) pre post

theorem collectResults_mem {α β ε : Type} {f : α → Except ε β} : ∀ {l : List α} {r : List β},
    collectResults f l = .ok r → ∀ x ∈ l, ∃ y, f x = .ok y
  | [], _, _, _, hx => by cases hx
  | x :: xs, r, h, y, hy => by
    rw [collectResults] at h
    split at h
    · cases h
    · rename_i b hb
      split at h
      · cases h
      · rename_i bs hbs
        rcases List.mem_cons.1 hy with rfl | hy
        · exact ⟨b, hb⟩
        · exact collectResults_mem hbs y hy

/-- C122: where a value should be, text that the grammar does not understand is reported: the workspace
is not built. -/
theorem C122_value_partial (L : Lang) (w : Workspace) {p : Str × SourceFile} (hp : p ∈ w)
    {n f v : Node} (hn : n ∈ p.2.root.children) (hk : n.kind = "entity_block".toList)
    (hf : f ∈ entityFields n) (hv : f.childOfKind "value" = some v) {junk : Str} {parts rest : List Node}
    (he : v.children = .mk "ERROR".toList junk parts :: rest) : ∃ e, w.build L = .error e := by
  cases hb : w.build L with
  | error e => exact ⟨e, rfl⟩
  | ok b =>
    have hvw := (C41_build L w b.entities b.schemas).1 hb
    have hmem : (p.2.rel, n) ∈ blocksOf "entity_block" w := by
      rw [blocksOf, List.mem_flatMap]
      exact ⟨p, hp, List.mem_map.2 ⟨n, List.mem_filter.2 ⟨hn, decide_eq_true hk⟩, rfl⟩⟩
    obtain ⟨e, hte⟩ : ∃ e, toEntity L p.2.rel n = .ok e := by
      have := hvw.entities
      clear hvw hb
      revert hmem this
      generalize blocksOf "entity_block" w = l
      generalize b.entities = es
      intro hmem h
      induction h with
      | nil => cases hmem
      | @cons x y l l' hx _ ih =>
        rcases List.mem_cons.1 hmem with h | h
        · exact ⟨y, by rw [← h] at hx; exact hx⟩
        · exact ih h
    rw [toEntity] at hte
    split at hte
    · cases hte
    · split at hte
      · cases hte
      · split at hte
        · cases hte
        · rename_i fs hfs
          obtain ⟨y, hy⟩ := collectResults_mem hfs f hf
          have hval : fieldValue L p.2.rel f = .error .missingParseMethod := by
            rw [fieldValue, hv]
            obtain ⟨vk, vt, vc⟩ := v
            change vc = _ at he
            subst he
            change fromNode L p.2.rel (.mk vk vt (.mk "ERROR".toList junk parts :: rest)) = _
            rw [fromNode, if_neg (by decide)]
            rfl
          rw [toField, hval] at hy
          split at hy <;> cases hy

/-- C122: the server's tools that take a text refuse one that the grammar does not understand: nothing is
written and the answer is an error. -/
theorem C122_refused_partial (H : Host) (order : Workspace → Workspace) (s : Server) (path : Str)
    (force : Bool) :
    (∀ content, H.accepts content = false → writeSource H order s path content force = (s, .error)) ∧
    ∀ old new all, (∀ content k, replaceExecute s.disk H.ws path old new all = some (content, k) →
      H.accepts content = false) → replaceSource H order s path old new all force = (s, .error) := by
  constructor
  · intro content h
    rw [writeSource, validateAndWrite, if_neg (by rw [h]; exact Bool.noConfusion)]
  · intro old new all h
    rw [replaceSource]
    split
    · rfl
    · rename_i content k hr
      rw [validateAndWrite, if_neg (by rw [h content k hr]; exact Bool.noConfusion)]

/-- A schema and an entity with comments around the field, within the list and behind the block. -/
def exCommented (extra : List Node) : SourceFile :=
  ⟨.mk "source_file".toList [] (extra ++
    [exSchemaNode "person" [("name", "string", "true"), ("tags", "list", "false")],
      .mk "entity_block".toList [] ([.mk "entity_type".toList "person".toList [],
        .mk "entity_id".toList "a".toList []] ++ extra ++ [.mk "block".toList [] (extra ++
          exFieldNode "name" "string" "\"A\"" :: extra ++ [.mk "field".toList []
            ([.mk "field_name".toList "tags".toList [], .mk "value".toList [] [.mk "list".toList []
              (extra ++ [.mk "value".toList "1".toList [.mk "number".toList [] []]] ++ extra)]]
              ++ extra)])])] ++ extra), "f.firm".toList⟩

/-- A comment and a piece of text that is not understood. -/
def exExtra : List Node :=
  [.mk "comment".toList "// person b {}".toList [],
    .mk "ERROR".toList "person person".toList [.mk "entity_type".toList "person".toList []]]

example : SaysTheSame (exCommented exExtra) (exCommented []) := ⟨rfl, by rfl⟩

example : Broken (exCommented exExtra) :=
  ⟨_, .under (List.mem_cons_of_mem _ List.mem_cons_self) (.here _), rfl⟩

example : (Workspace.build exLang [("/w/f.firm".toList, exCommented exExtra)]).toOption.map (·.entities) =
    some [⟨"person.a".toList, "person".toList,
      [("name".toList, .string "A".toList), ("tags".toList, .list [.integer 1])]⟩] := by decide +kernel

/-- A value that is not understood is reported. -/
example : ∃ e, Workspace.build exLang [("/w/f.firm".toList,
    ⟨.mk "source_file".toList [] [.mk "entity_block".toList [] [.mk "entity_type".toList "person".toList [],
      .mk "entity_id".toList "a".toList [], .mk "block".toList [] [.mk "field".toList []
        [.mk "field_name".toList "n".toList [], .mk "value".toList "?".toList
          [.mk "ERROR".toList "?".toList []]]]]], "f.firm".toList⟩)] = .error e :=
  C122_value_partial exLang _ List.mem_cons_self List.mem_cons_self rfl List.mem_cons_self rfl rfl

example : ({ exHost with accepts := fun t => decide (t ≠ "?".toList) }).accepts "?".toList = false := by
  decide

end Firm
