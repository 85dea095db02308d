import Verif.Props.Prompt
import Verif.Props.Served
import Verif.Props.Strings
import Verif.Props.RoundTrip

/-! # What a dialogue can leave out, what its references lead to and how the entity reads back (C101–C104) -/

namespace Firm
open Spec

/-! ## C101: leaving out optional fields -/

/-- C101: an optional field of every type but enum is left out with the escape key. -/
theorem C101_skip_partial (D : Dialogue) (g : Graph) (target : List PathComp) (fs : FieldSchema) (rest : List Answer)
    (ho : fs.fieldMode = .optional) (he : fs.fieldType ≠ .enum) :
    fieldPrompt D g target fs (.skip :: rest) = some (none, rest) := by
  refine (C100_no_value D g target fs _ rest).2 ⟨ho, [.skip], rfl, ?_⟩
  cases ht : fs.fieldType with
  | enum => exact absurd ht he
  | reference => exact .reference ht .now
  | list => exact .list ht .now
  | path => exact .path ht .now
  | boolean => exact .item (ht ▸ .boolean .now)
  | string => exact .item (ht ▸ .string .now)
  | integer => exact .item (ht ▸ .integer .now)
  | float => exact .item (ht ▸ .float .now)
  | currency => exact .item (ht ▸ .currency .now)
  | dateTime => exact .item (ht ▸ .dateTime (.day .now))

/-- C101 is false for enums: whatever is answered, a dialogue that goes on has a value for the field, and the escape key
ends the whole dialogue. -/
theorem C101_enum (D : Dialogue) (g : Graph) (target : List PathComp) (fs : FieldSchema) (he : fs.fieldType = .enum) :
    (∀ as rest, fieldPrompt D g target fs as ≠ some (none, rest)) ∧
    ∀ rest, fieldPrompt D g target fs (.skip :: rest) = none := by
  have h1 : ∀ as rest, fieldPrompt D g target fs as ≠ some (none, rest) := by
    intro as rest h
    obtain ⟨-, u, -, h2⟩ := (C100_no_value D g target fs as rest).1 h
    cases h2 with
    | item h => rw [he] at h; cases h
    | reference h => rw [he] at h; cases h
    | list h => rw [he] at h; cases h
    | path h => rw [he] at h; cases h
  refine ⟨h1, fun rest => ?_⟩
  cases hf : fieldPrompt D g target fs (.skip :: rest) with
  | none => rfl
  | some p =>
    obtain ⟨v, r⟩ := p
    cases v with
    | none => exact absurd hf (h1 _ _)
    | some v =>
      exfalso
      obtain ⟨u, h2, h3⟩ := (C100_value D g target fs _ r v).1 hf
      have key : ∀ {α : Type} {options : List α} {w : α}, Answered (Picks options) u w → False := by
        intro α options w h
        cases h with
        | now hR =>
          obtain ⟨_, _, _, rfl⟩ := hR
          simp at h2
        | again _ hs _ _ =>
          have := (List.cons.inj h2).1
          exact hs this.symm
      cases h3 with
      | item h => rw [he] at h; cases h
      | reference h => rw [he] at h; cases h
      | list h => rw [he] at h; cases h
      | path h => rw [he] at h; cases h
      | enum _ _ h => exact key h

/-- C101: a required field is never left out. -/
theorem C101_required (D : Dialogue) (g : Graph) (target : List PathComp) (fs : FieldSchema) (hr : fs.fieldMode = .required)
    (as rest : List Answer) : fieldPrompt D g target fs as ≠ some (none, rest) := by
  intro h
  have := ((C100_no_value D g target fs as rest).1 h).1
  rw [hr] at this
  cases this

/-- A dialogue for the examples. -/
def exDialogue : Dialogue := ⟨exShell, ["EUR".toList, "USD".toList]⟩

/-- C101: once the amount is given, an optional currency cannot be left out; the escape key ends the whole dialogue. -/
theorem C101_currency : ∃ (fs : FieldSchema), fs.fieldMode = .optional ∧
    fieldPrompt exDialogue Graph.empty [] fs [.text "12.50".toList, .skip] = none ∧
    fieldPrompt exDialogue Graph.empty [] fs [.text "12.50".toList, .pick 0] =
      some (some (.currency ⟨1250, 2⟩ "EUR".toList), []) :=
  ⟨.new .currency .optional 0, rfl, rfl, rfl⟩

/-- C101: an offset that is out of range ends the whole dialogue, while other answers that are not taken are asked for
again. -/
theorem C101_offset : ∃ (fs : FieldSchema), fs.fieldMode = .optional ∧
    fieldPrompt exDialogue Graph.empty [] fs [.day 0, .text "25:00".toList, .text "9:30".toList, .text "15".toList, .text "2".toList] = none ∧
    fieldPrompt exDialogue Graph.empty [] fs [.day 0, .text "25:00".toList, .text "9:30".toList, .text "x".toList, .text "2".toList] =
      some (some (.dateTime ⟨27000, 0, 7200⟩), []) :=
  ⟨.new .dateTime .optional 0, rfl, by decide +kernel, by decide +kernel⟩

/-! ## C102: references lead to what is there -/

theorem answered_last {α : Type} {R : Answer → α → Prop} {u : List Answer} {v : α} (h : Answered R u v) : ∃ a, R a v := by
  induction h with
  | now h => exact ⟨_, h⟩
  | again _ _ _ _ ih => exact ih

theorem items_no_refs {D : Dialogue} {t : FieldType} {u : List Answer} {vs : List FieldValue} (h : ItemsEntered D t u vs) :
    ∀ v ∈ vs, ∃ us, ItemEntered D t us v := by
  induction h with
  | done _ => simp
  | more h _ ih =>
    intro v hv
    rcases List.mem_cons.1 hv with rfl | hv
    · exact ⟨_, h⟩
    · exact ih v hv

theorem item_no_ref {D : Dialogue} {t : FieldType} {u : List Answer} {v : FieldValue} (h : ItemEntered D t u v) (id : EntityId) :
    ¬ HoldsRef v id := by
  intro hr
  cases h <;> cases hr

/-- C102: every reference of an entity that was entered leads to an entity of the graph that was saved, and every reference
to a field leads to a field of it. -/
theorem C102_references (D : Dialogue) (b : WorkspaceBuild) (hb : b.toGraph.2 = .ok ()) (schemas : List EntitySchema)
    (hk : ∀ sc ∈ schemas, sc.KeysUnique) (toFile : Option Str) (as rest : List Answer) (e : Entity) (target : List PathComp)
    (h : D.entity b.toGraph.1 schemas toFile as = some (e, target, rest)) :
    (∀ id, RefersTo e id → ∃ e' ∈ b.entities, e'.id = id) ∧
    ∀ f id k, (f, FieldValue.reference (.field id k)) ∈ e.fields → ∃ v, FieldAt b.entities (id, k) v := by
  obtain ⟨sc, chosen, h1, -, -⟩ := C100_entity D _ schemas toFile as rest e target h
  have hsc : sc ∈ schemas := by
    obtain ⟨types, _, _, _, _, _, _, _, _, _, _, -, hp, -, hpick, -⟩ := h1.parts
    exact hp.mem_iff.1 (picks_mem hpick)
  obtain ⟨-, c2, -⟩ := C100_fields D _ schemas target as rest sc chosen e (hk sc hsc) h1
  constructor
  · rintro id ⟨f, v, hm, hr⟩
    obtain ⟨fs, us, -, hf⟩ := c2 _ hm
    cases hf with
    | item h => exact absurd hr (item_no_ref h id)
    | reference _ h =>
      obtain ⟨_, s, -, ht⟩ := answered_last h
      cases hr
      cases ht with
      | entity _ _ he =>
        obtain ⟨i1, i2⟩ := (C44_lookup b hb _ _).1 he
        exact ⟨_, i1, i2⟩
      | field _ _ _ he _ =>
        obtain ⟨i1, i2⟩ := (C44_lookup b hb _ _).1 he
        exact ⟨_, i1, i2⟩
    | list _ _ h =>
      cases hr with
      | item _ w _ hw hr =>
        obtain ⟨_, hi⟩ := items_no_refs h w hw
        exact absurd hr (item_no_ref hi id)
    | path => cases hr
    | enum => cases hr
  · intro f id k hm
    obtain ⟨fs, us, -, hf⟩ := c2 _ hm
    cases hf with
    | item h => exact absurd (.ref _) (item_no_ref h _)
    | reference _ h =>
      obtain ⟨_, s, -, ht⟩ := answered_last h
      cases ht with
      | field _ _ _ he hv =>
        obtain ⟨i1, i2⟩ := (C44_lookup b hb _ _).1 he
        exact ⟨_, _, i1, i2, getField_iff.2 hv⟩

/-! ## C103: the id -/

theorem sanitize_no_dot (S : Shell) (hT : RegularCase S.lang.cases) (hdot : S.alnum '.' = false) (s : Str) :
    '.' ∉ S.sanitize s := by
  intro h
  have := (List.mem_filter.1 (dot_mem_snake hT h)).2
  rw [hdot] at this
  revert this
  decide

theorem unique_no_dot (S : Shell) (hT : RegularCase S.lang.cases) (hdot : S.alnum '.' = false) (g : Graph) (type chosen : Str) :
    '.' ∉ S.uniqueEntityId g type chosen := by
  obtain ⟨j, -, h, -⟩ := C65_first S g type chosen
  rw [h]
  unfold candidate
  split
  · exact sanitize_no_dot S hT hdot chosen
  · intro hm
    rcases List.mem_append.1 hm with hm | hm
    · exact sanitize_no_dot S hT hdot chosen hm
    · rcases List.mem_cons.1 hm with hm | hm
      · revert hm; decide
      · have := showNat_digits j _ hm
        revert this; decide

/-- The value of a field as it is read from the block, if it is read. -/
theorem toEntity_fields {L : Lang} {source : Str} {e e' : Entity}
    (h : toEntity L source (entityNode L .default e) = .ok e') :
    e'.id = L.cases.composeEntityId (L.cases.lower e.entityType) (decomposeEntityId e.id).2 ∧
    e'.entityType = L.cases.lower e.entityType := by
  unfold toEntity at h
  rw [show entityTypeOf (entityNode L .default e) = some (L.cases.lower e.entityType) from rfl,
    show entityIdOf (entityNode L .default e) = some (decomposeEntityId e.id).2 from rfl] at h
  dsimp only at h
  split at h
  · cases h
  · cases h
    exact ⟨rfl, rfl⟩

/-- C103 is false for dialogues: whatever is answered, the id that is reported is not the id of the entity that is read
from the block; that one is the type and the reported id, joined and normalised. (The full stop is not alphanumeric;
schemas have normalised types without full stops.) -/
theorem C103_dialogue (D : Dialogue) (hT : RegularCase D.shell.lang.cases) (hdot : D.shell.alnum '.' = false) (g : Graph)
    (schemas : List EntitySchema) (hs : ∀ sc ∈ schemas, IsSnake D.shell.lang.cases sc.entityType ∧ '.' ∉ sc.entityType)
    (toFile : Option Str) (as rest : List Answer) (e : Entity) (target : List PathComp)
    (h : D.entity g schemas toFile as = some (e, target, rest)) (source : Str) (e' : Entity)
    (hr : toEntity D.shell.lang source (entityNode D.shell.lang .default e) = .ok e') :
    e'.id = D.shell.lang.cases.composeEntityId e.entityType e.id ∧ e'.entityType = e.entityType ∧ e'.id ≠ e.id := by
  obtain ⟨sc, chosen, h1, -, h3⟩ := C100_entity D g schemas toFile as rest e target h
  obtain ⟨hsc, hty⟩ : sc ∈ schemas ∧ e.entityType = sc.entityType := by
    obtain ⟨types, _, _, _, _, _, _, _, _, _, _, -, hp, -, hpick, -, -, -, -, -, -, -, ht, -⟩ := h1.parts
    exact ⟨hp.mem_iff.1 (picks_mem hpick), ht⟩
  obtain ⟨hsn, hnd⟩ := hs sc hsc
  rw [← hty] at hsn hnd
  have hid : '.' ∉ e.id := h3 ▸ unique_no_dot D.shell hT hdot g _ _
  have hl : D.shell.lang.cases.lower e.entityType = e.entityType := lower_fixed hT fun c hc => (hsn.chars c hc).1
  have hdec : (decomposeEntityId e.id).2 = e.id := by
    rcases C48_decompose_all e.id with ⟨-, h⟩ | ⟨p, q, hpq, -⟩
    · rw [h]
    · exact absurd (hpq ▸ by simp) hid
  obtain ⟨k1, k2⟩ := toEntity_fields hr
  rw [hl, hdec] at k1
  rw [hl] at k2
  refine ⟨k1, k2, fun he => hid ?_⟩
  obtain ⟨a, b, h4, -⟩ := C50_entity_ids (L := D.shell.lang) hT hnd hid
  rw [← he, k1, h4]
  simp

/-- C103: the id of the entity that `firm add` makes of its arguments is the one that is read from the block. Missing:
dialogues (`C103_dialogue`). -/
theorem C103_command_partial (S : Shell) (hT : RegularCase S.lang.cases) (g : Graph) (schemas : List EntitySchema)
    (hs : ∀ sc ∈ schemas, IsSnake S.lang.cases sc.entityType ∧ '.' ∉ sc.entityType) (a : AddArgs) (e e' : Entity)
    (h : S.entityToAdd g schemas a = some e) (source : Str)
    (hr : toEntity S.lang source (entityNode S.lang .default e) = .ok e') : e'.id = e.id ∧ '.' ∈ e.id := by
  obtain ⟨sc, h1, h2, h3, h4, -⟩ := cli_entityToAdd_spec h
  obtain ⟨hsn, hnd⟩ := hs sc h1
  have hty : e.entityType = a.type := h3.1.trans h2
  rw [h2] at hsn hnd
  refine ⟨(toEntity_node hT (hty ▸ hsn) (hty ▸ hnd) (by rw [hty]; exact h4) hr).1, ?_⟩
  obtain ⟨r, hr⟩ := compose_prefix hT hsn (S.sanitize a.id)
  rw [h4, hr]
  simp

/-- C103: the id that is read for the entity of a dialogue is new, if the saved graph has fewer than a thousand entities
and the text of the id has a letter or a digit. Missing: larger graphs (`C65_exhausted`) and graphs older than the files
(`C65_stale`). -/
theorem C103_new_partial (D : Dialogue) (hT : RegularCase D.shell.lang.cases) (hdot : D.shell.alnum '.' = false)
    (b : WorkspaceBuild) (hb : b.toGraph.2 = .ok ()) (hn : b.entities.length < 1000)
    (schemas : List EntitySchema) (hs : ∀ sc ∈ schemas, IsSnake D.shell.lang.cases sc.entityType ∧ '.' ∉ sc.entityType)
    (toFile : Option Str) (as rest : List Answer) (e : Entity) (target : List PathComp)
    (h : D.entity b.toGraph.1 schemas toFile as = some (e, target, rest)) :
    ∃ sc chosen, Entered D b.toGraph.1 schemas target as sc chosen e rest ∧
      (D.shell.sanitize chosen ≠ [] → ∀ source e',
        toEntity D.shell.lang source (entityNode D.shell.lang .default e) = .ok e' → ∀ x ∈ b.entities, x.id ≠ e'.id) := by
  obtain ⟨sc, chosen, h1, -, h3⟩ := C100_entity D _ schemas toFile as rest e target h
  obtain ⟨hsc, hty⟩ : sc ∈ schemas ∧ e.entityType = sc.entityType := by
    obtain ⟨types, _, _, _, _, _, _, _, _, _, _, -, hp, -, hpick, -, -, -, -, -, -, -, ht, -⟩ := h1.parts
    exact ⟨hp.mem_iff.1 (picks_mem hpick), ht⟩
  obtain ⟨hsn, hnd⟩ := hs sc hsc
  refine ⟨sc, chosen, h1, fun hc source e' hr x hx => ?_⟩
  obtain ⟨k1, -, -⟩ := C103_dialogue D hT hdot _ schemas hs toFile as rest e target h source e' hr
  rw [k1, hty, h3]
  refine C65_unused_partial D.shell hT b hb hn _ _ (fun c hl => ?_) hc x hx
  have hm := List.mem_of_getLast? hl
  have := hsn.chars c hm
  have hu : c ≠ '_' := fun hu => hsn.last (hu ▸ hl)
  unfold isDelim
  simp [this.2.1, this.2.2, hu]

/-! ## C104: reading back -/

/-- A value whose literal is read as itself: no quotation marks or line breaks in texts, enums do not end with `enum` and
paths not with `path`, floats have a text, and dates a year of the calendar. -/
inductive Spec.Legible (L : Lang) : FieldValue → Prop
  | boolean (b : Bool) : Legible L (.boolean b)
  | string {s : Str} : '"' ∉ s → '\n' ∉ s → Legible L (.string s)
  | integer (n : Int) : Legible L (.integer n)
  | float {f : F64} : FloatText L f → Legible L (.float f)
  | currency (d : Decimal) (c : Str) : Legible L (.currency d c)
  | reference (r : ReferenceValue) : Legible L (.reference r)
  | dateTime {d : DateTime} : -262143 ≤ (civilOf ((d.secs + d.offset) / 86400)).year →
      (civilOf ((d.secs + d.offset) / 86400)).year ≤ 262142 → Legible L (.dateTime d)
  | path {p : Str} : '"' ∉ p → (∀ x, p ≠ x ++ "path".toList) → Legible L (.path p)
  | enum {s : Str} : '"' ∉ s → (∀ x, s ≠ x ++ "enum".toList) → Legible L (.enum s)
  | list {items : List FieldValue} : (∀ v ∈ items, Legible L v) → Legible L (.list items)

theorem decimal_fits {s : Str} {d : Decimal} (h : parseDecimal s = some d) : d.fits = true := by
  unfold parseDecimal at h
  obtain ⟨p, -, h⟩ := Option.bind_eq_some_iff.1 h
  obtain ⟨m, -, h⟩ := Option.bind_eq_some_iff.1 h
  simp only [Option.ite_none_right_eq_some, Option.some.injEq] at h
  exact h.2 ▸ h.1

theorem dateAnswered_form {L : Lang} {u : List Answer} {d : DateTime} (h : DateAnswered L u d) :
    -86400 < d.offset ∧ d.offset < 86400 ∧ d.nanos = 0 ∧ (d.secs + d.offset) % 60 = 0 ∧ d.offset % 3600 = 0 := by
  cases h with
  | mk _ _ _ h1 h2 =>
    unfold moment
    dsimp only
    omega

theorem item_reads {D : Dialogue} (hc : ∀ c ∈ D.currencies, D.shell.lang.knownCurrency c = true ∧ ' ' ∉ c)
    {t : FieldType} {u : List Answer} {v : FieldValue} {source : Str} (h : ItemEntered D t u v)
    (hl : Legible D.shell.lang v) : ReadsBack D.shell.lang .default source v := by
  cases h with
  | boolean _ => exact C50_boolean _
  | string _ => cases hl with | string h1 h2 => exact (C51_single_line_partial h2).2 h1
  | integer h =>
    obtain ⟨_, s, -, -, h1, h2⟩ := answered_last h
    exact C50_integer (by simp [isI64]; omega)
  | float _ => cases hl with | float h1 => exact C68_float_partial h1
  | currency h1 h2 =>
    obtain ⟨_, s, -, hd⟩ := answered_last h1
    obtain ⟨k1, k2⟩ := hc _ (picks_mem h2)
    exact C50_currency (decimal_fits hd) k1 k2
  | dateTime h =>
    obtain ⟨k1, k2, k3, k4, k5⟩ := dateAnswered_form h
    cases hl with | dateTime h1 h2 => exact (C52_same_partial _ k1 k2 h1 h2).2 ⟨k3, k4, k5⟩

theorem item_kind {D : Dialogue} {t : FieldType} {u u' : List Answer} {v v' : FieldValue} (h : ItemEntered D t u v)
    (h' : ItemEntered D t u' v') : itemKind v = itemKind v' := by
  cases h <;> cases h' <;> rfl

/-- C104: a value that is not a path reads back. Missing: quotation marks (`C51_quotation_mark`), enums that end with `enum`
(`C69_reads_as`), floats that are not numbers (`C68_infinite`), and years beyond the calendar. -/
theorem C104_value_partial {D : Dialogue} (hT : RegularCase D.shell.lang.cases)
    (hc : ∀ c ∈ D.currencies, D.shell.lang.knownCurrency c = true ∧ ' ' ∉ c) {g : Graph} {target : List PathComp}
    {fs : FieldSchema} {u : List Answer} {v : FieldValue} {source : Str} (h : FieldEntered D g target fs u v)
    (hl : Legible D.shell.lang v) (hp : fs.fieldType ≠ .path) : ReadsBack D.shell.lang .default source v := by
  cases h with
  | item h => exact item_reads hc h hl
  | reference _ h =>
    obtain ⟨_, s, -, hr⟩ := answered_last h
    cases hr with
    | entity h1 h2 _ =>
      obtain ⟨x, y, k1, k2, k3, k4⟩ := C50_entity_ids (L := D.shell.lang) hT h1 h2
      rw [k1]
      exact C50_entity_reference_partial hT k2 k3 k4
    | field h1 h2 h3 _ _ =>
      obtain ⟨x, y, k1, k2, k3, k4⟩ := C50_entity_ids (L := D.shell.lang) hT h1 h2
      rw [k1]
      exact C50_field_reference_partial hT k2 k3 h3 k4
  | list _ _ h =>
    cases hl with
    | list hl =>
      refine (C67_list _).2 ⟨fun v hv => ?_, fun v hv w hw => ?_⟩
      · obtain ⟨_, hi⟩ := items_no_refs h v hv
        exact item_reads hc hi (hl v hv)
      · obtain ⟨_, h1⟩ := items_no_refs h v hv
        obtain ⟨_, h2⟩ := items_no_refs h w hw
        exact item_kind h1 h2
  | path h => exact absurd h hp
  | enum _ _ _ => cases hl with | enum h1 h2 => exact (C69_enum_partial h1).2 h2

theorem parseLeaf_path {L : Lang} {source : Str} (raw : Str) : parseLeaf L source "path".toList raw = parsePath raw source := by
  unfold parseLeaf
  rw [if_neg (by decide), if_neg (by decide), if_neg (by decide), if_neg (by decide), if_neg (by decide),
    if_neg (by decide), if_neg (by decide), if_pos rfl]

/-- C104: a path is read as one that leads to the place to which the entered text leads from the workspace. Missing:
quotation marks, paths that end with `path` and target files with `..` in their names (`C89_dots`). -/
theorem C104_path_partial (L : Lang) (ws : List Str) {dirs : List Str} {name : Str} (hv : ∀ n ∈ dirs ++ [name], ValidName n)
    (s : Str) (hl : Legible L (.path (promptedPath ws (.rootDir :: (ws ++ dirs ++ [name]).map .normal) s))) :
    ∃ p, ReadsAs L .default (joinWith ['/'] (dirs ++ [name]))
        (.path (promptedPath ws (.rootDir :: (ws ++ dirs ++ [name]).map .normal) s)) (.path p) ∧
      NormalPath p ∧ lexicalPlace ws (pathComponents p) = lexicalPlace ws (pathComponents s) := by
  cases hl with
  | path hq he =>
    obtain ⟨p, h1, h2, h3⟩ := C88_place_partial hv hq he
    refine ⟨p, ⟨.path p, ?_, rfl⟩, h2, ?_⟩
    · rw [fromNode_leaf (by simp), show ∀ x, (literalKind (.path x)).toList = "path".toList from fun _ => rfl,
        parseLeaf_path, ← h1]
      simp only [generateValue]
    · rw [h3]
      obtain ⟨rel, k1, k2, -, k4⟩ := diffComps_spec (ws := ws) (dirs := dirs) (name := name) s
      rw [promptedPath, k1]
      dsimp only
      rw [showComps_plain k2, components_plain k2, k4]

/-- How a value that was entered is read: as itself, or as a path to the place of the entered text. -/
def Spec.ReadAsEntered (ws : List Str) (target : List PathComp) (v v' : FieldValue) : Prop :=
  v' = v ∨ ∃ s p, v = .path (promptedPath ws target s) ∧ v' = .path p ∧ NormalPath p ∧
    lexicalPlace ws (pathComponents p) = lexicalPlace ws (pathComponents s)

theorem collect_fields {L : Lang} {source : Str} {l l' : List (FieldId × FieldValue)}
    (h : List.Forall₂ (fun p q => q.1 = p.1 ∧ ReadsAs L .default source p.2 q.2) l l') :
    collectResults (toField L source) (l.map fun p => fieldNode p.1 (valueNode L .default p.2)) = .ok l' := by
  induction h with
  | nil => rfl
  | @cons p q l l' hpq _ ih =>
    obtain ⟨f, v'⟩ := q
    obtain ⟨rfl, h2⟩ := hpq
    simp only [List.map_cons, collectResults, toField_node _ h2, ih]

theorem toEntity_reads {L : Lang} {source : Str} (e : Entity) {l' : List (FieldId × FieldValue)}
    (h : List.Forall₂ (fun p q => q.1 = p.1 ∧ ReadsAs L .default source p.2 q.2) e.fields l') :
    toEntity L source (entityNode L .default e) =
      .ok ⟨L.cases.composeEntityId (L.cases.lower e.entityType) (decomposeEntityId e.id).2,
        L.cases.lower e.entityType, l'⟩ := by
  have hf : entityFields (entityNode L .default e) = e.fields.map fun p => fieldNode p.1 (valueNode L .default p.2) := by
    unfold entityFields entityNode
    refine blockItems_fields _ _ _ _ _ _ _ _ ?_ ?_ ?_ ?_ ?_
    · simp only [Node.kind]; decide
    · simp only [Node.kind]; decide
    · decide
    · decide
    · intro n hn
      obtain ⟨p, -, rfl⟩ := List.mem_map.1 hn
      rfl
  unfold toEntity
  rw [show entityTypeOf (entityNode L .default e) = some (L.cases.lower e.entityType) from rfl,
    show entityIdOf (entityNode L .default e) = some (decomposeEntityId e.id).2 from rfl, hf]
  simp only [collect_fields h]

/-- C104: an entity that was entered is read with its values, its type and the id of `C103_dialogue`. Missing: as for
`C104_value_partial` and `C104_path_partial`. -/
theorem C104_entity_partial (D : Dialogue) (hT : RegularCase D.shell.lang.cases) (hdot : D.shell.alnum '.' = false)
    (hc : ∀ c ∈ D.currencies, D.shell.lang.knownCurrency c = true ∧ ' ' ∉ c) (g : Graph) (schemas : List EntitySchema)
    (hk : ∀ sc ∈ schemas, sc.KeysUnique ∧ IsSnake D.shell.lang.cases sc.entityType ∧ '.' ∉ sc.entityType)
    (toFile : Option Str) (as rest : List Answer) (e : Entity) {dirs : List Str} {name : Str}
    (hv : ∀ n ∈ dirs ++ [name], ValidName n)
    (h : D.entity g schemas toFile as = some (e, .rootDir :: (D.shell.ws ++ dirs ++ [name]).map .normal, rest))
    (hl : ∀ p ∈ e.fields, Legible D.shell.lang p.2) :
    ∃ e', toEntity D.shell.lang (joinWith ['/'] (dirs ++ [name])) (entityNode D.shell.lang .default e) = .ok e' ∧
      e'.id = D.shell.lang.cases.composeEntityId e.entityType e.id ∧ e'.entityType = e.entityType ∧
      List.Forall₂ (fun p q => q.1 = p.1 ∧
        ReadAsEntered D.shell.ws (.rootDir :: (D.shell.ws ++ dirs ++ [name]).map .normal) p.2 q.2) e.fields e'.fields := by
  obtain ⟨sc, chosen, h1, -, -⟩ := C100_entity D g schemas toFile as rest e _ h
  have hsc : sc ∈ schemas := by
    obtain ⟨types, _, _, _, _, _, _, _, _, _, _, -, hp, -, hpick, -⟩ := h1.parts
    exact hp.mem_iff.1 (picks_mem hpick)
  obtain ⟨-, c2, -⟩ := C100_fields D _ schemas _ as rest sc chosen e (hk sc hsc).1 h1
  have hread : ∃ l' : List (FieldId × FieldValue), List.Forall₂ (fun p q => q.1 = p.1 ∧ ReadsAs D.shell.lang .default (joinWith ['/'] (dirs ++ [name])) p.2 q.2) e.fields l' ∧
      List.Forall₂ (fun p q => q.1 = p.1 ∧
        ReadAsEntered D.shell.ws (.rootDir :: (D.shell.ws ++ dirs ++ [name]).map .normal) p.2 q.2) e.fields l' := by
    have hone : ∀ p ∈ e.fields, ∃ v', ReadsAs D.shell.lang .default (joinWith ['/'] (dirs ++ [name])) p.2 v' ∧
        ReadAsEntered D.shell.ws (.rootDir :: (D.shell.ws ++ dirs ++ [name]).map .normal) p.2 v' := by
      intro p hp
      obtain ⟨fs, us, -, hf⟩ := c2 p hp
      have hlp := hl p hp
      by_cases ht : fs.fieldType = .path
      · generalize p.2 = v at hf hlp
        cases hf with
        | item h => rw [ht] at h; cases h
        | reference h => rw [ht] at h; cases h
        | list h => rw [ht] at h; cases h
        | enum h => rw [ht] at h; cases h
        | path _ h =>
          obtain ⟨q, k1, k2, k3⟩ := C104_path_partial D.shell.lang D.shell.ws hv _ hlp
          exact ⟨_, k1, .inr ⟨_, q, rfl, rfl, k2, k3⟩⟩
      · exact ⟨p.2, C104_value_partial hT hc hf hlp ht, .inl rfl⟩
    generalize e.fields = l at hone
    induction l with
    | nil => exact ⟨[], .nil, .nil⟩
    | cons p l ih =>
      obtain ⟨v', k1, k2⟩ := hone p (by simp)
      obtain ⟨l', k3, k4⟩ := ih fun q hq => hone q (by simp [hq])
      exact ⟨(p.1, v') :: l', .cons ⟨rfl, k1⟩ k3, .cons ⟨rfl, k2⟩ k4⟩
  obtain ⟨l', k1, k2⟩ := hread
  have hr := toEntity_reads e k1
  obtain ⟨m1, m2, -⟩ := C103_dialogue D hT hdot g schemas (fun sc hsc => (hk sc hsc).2) toFile as rest e _ h _ _ hr
  exact ⟨_, hr, m1, m2, k2⟩

/-! ## The schemas of a build -/

theorem toSchemaField_allowed {L : Lang} {source : Str} {k : Nat} {n : Node} {p : FieldId × FieldSchema}
    (h : toSchemaField L source k n = .ok p) (allowed : List Str) (ha : p.2.allowedValues = some allowed) :
    ∃ vs : List Str, allowed = vs.map fun v => L.env.lower (trim v) := by
  unfold toSchemaField at h
  split at h
  · cases h
  · split at h
    · cases h
    · split at h
      · cases h
      · split at h
        · cases h
        · dsimp only at h
          split at h
          · split at h
            · cases h
            · next vs _ => cases h; cases ha; exact ⟨vs, rfl⟩
            · cases h; cases ha
          · cases h; cases ha

theorem toSchema_ok {L : Lang} {source : Str} {n : Node} {sc : EntitySchema} (h : toSchema L source n = .ok sc) :
    sc.KeysUnique ∧ ∀ p ∈ sc.fields, ∀ allowed, p.2.allowedValues = some allowed →
      ∃ vs : List Str, allowed = vs.map fun v => L.env.lower (trim v) := by
  unfold toSchema at h
  split at h
  · cases h
  · next nm _ =>
    have key : ∀ (ns : List Node) (k : Nat) (s₀ : EntitySchema),
        (s₀.KeysUnique ∧ ∀ p ∈ s₀.fields, ∀ allowed, p.2.allowedValues = some allowed →
          ∃ vs : List Str, allowed = vs.map fun v => L.env.lower (trim v)) → toSchemaFields L source s₀ k ns = .ok sc →
        sc.KeysUnique ∧ ∀ p ∈ sc.fields, ∀ allowed, p.2.allowedValues = some allowed →
          ∃ vs : List Str, allowed = vs.map fun v => L.env.lower (trim v) := by
      intro ns
      induction ns with
      | nil => intro k s₀ h0 h; cases h; exact h0
      | cons m ns ih =>
        intro k s₀ h0 h
        rw [toSchemaFields] at h
        split at h
        · cases h
        · next q hq =>
          refine ih (k + 1) (s₀.addFieldSchema q.1 q.2) ⟨mapInsert_nodup h0.1, fun p hp allowed ha => ?_⟩ h
          rcases mem_mapInsert hp with hp | hp
          · exact h0.2 p hp allowed ha
          · rw [hp] at ha
            exact toSchemaField_allowed hq allowed ha
    refine key _ _ _ ⟨?_, ?_⟩ h
    · exact List.nodup_nil
    · intro p hp; cases hp

theorem build_schema_ok {L : Lang} {w : Workspace} {b : WorkspaceBuild} (h : w.build L = .ok b) {sc : EntitySchema}
    (hs : sc ∈ b.schemas) : sc.KeysUnique ∧ ∀ p ∈ sc.fields, ∀ allowed, p.2.allowedValues = some allowed →
      ∃ vs : List Str, allowed = vs.map fun v => L.env.lower (trim v) := by
  have hv := (C41_build L w b.entities b.schemas).1 h
  obtain ⟨bl, _, hc⟩ := forall2_left hv.schemas sc hs
  exact toSchema_ok hc

/-- C99: with the schemas of a build every dialogue makes an entity that satisfies one of them. (Normalising a value twice
is normalising it once.) -/
theorem C99_built (D : Dialogue) {w : Workspace} {b : WorkspaceBuild} (hb : w.build D.shell.lang = .ok b)
    (hlow : ∀ s, D.shell.lang.env.lower (trim (D.shell.lang.env.lower (trim s))) = D.shell.lang.env.lower (trim s))
    (g : Graph) (toFile : Option Str) (as rest : List Answer) (e : Entity) (target : List PathComp)
    (h : D.entity g b.schemas toFile as = some (e, target, rest)) :
    ∃ sc ∈ b.schemas, Conforms D.shell.lang.env sc e := by
  refine C99_conforms D g b.schemas toFile as rest e target (fun sc hs => (build_schema_ok hb hs).1) ?_ h
  intro sc hs p hp allowed ha x hx
  obtain ⟨vs, rfl⟩ := (build_schema_ok hb hs).2 p hp allowed ha
  obtain ⟨y, hy, rfl⟩ := List.mem_map.1 hx
  exact List.mem_map.2 ⟨y, hy, (hlow y).symm⟩

/-! ## The file afterwards -/

theorem readAs_ok {env : Env} {fs : FieldSchema} {ws : List Str} {target : List PathComp} {v v' : FieldValue}
    (h : ReadAsEntered ws target v v') (hok : ValueOk env fs v) : ValueOk env fs v' := by
  rcases h with rfl | ⟨s, p, rfl, rfl, -⟩
  · exact hok
  · exact ⟨hok.1, fun x hx => by cases hx⟩

theorem first_related {R : FieldValue → FieldValue → Prop} {l l' : List (FieldId × FieldValue)}
    (h : List.Forall₂ (fun p q => q.1 = p.1 ∧ R p.2 q.2) l l') :
    (∀ f v', FirstValue l' f v' → ∃ v, FirstValue l f v ∧ R v v') ∧
    ∀ f v, FirstValue l f v → ∃ v', FirstValue l' f v' := by
  induction h with
  | nil => exact ⟨fun f v' h => (by cases h), fun f v h => (by cases h)⟩
  | @cons p q l l' hpq _ ih =>
    obtain ⟨f₀, v₀⟩ := p
    obtain ⟨f₁, v₁⟩ := q
    obtain ⟨rfl, hR⟩ := hpq
    constructor
    · intro f v' h
      cases h with
      | here => exact ⟨v₀, .here _ _ _, hR⟩
      | there _ _ _ _ _ hne h =>
        obtain ⟨v, h1, h2⟩ := ih.1 f v' h
        exact ⟨v, .there _ _ _ _ _ hne h1, h2⟩
    · intro f v h
      cases h with
      | here => exact ⟨v₁, .here _ _ _⟩
      | there _ _ _ _ _ hne h =>
        obtain ⟨v', h1⟩ := ih.2 f v h
        exact ⟨v', .there _ _ _ _ _ hne h1⟩

theorem conforms_read {env : Env} {sc : EntitySchema} {ws : List Str} {target : List PathComp} {e e' : Entity}
    (ht : e'.entityType = e.entityType)
    (h : List.Forall₂ (fun p q => q.1 = p.1 ∧ ReadAsEntered ws target p.2 q.2) e.fields e'.fields)
    (hc : Conforms env sc e) : Conforms env sc e' := by
  obtain ⟨h1, h2⟩ := first_related h
  refine ⟨ht.trans hc.1, fun f fs hf => ⟨fun v' hv' => ?_, fun hr => ?_⟩⟩
  · obtain ⟨v, k1, k2⟩ := h1 f v' hv'
    exact readAs_ok k2 ((hc.2 f fs hf).1 v k1)
  · obtain ⟨v, k1⟩ := (hc.2 f fs hf).2 hr
    exact h2 f v k1

/-- C100: a dialogue that fails changes no file. -/
theorem C100_failed (D : Dialogue) (hws : ∀ n ∈ D.shell.ws, ValidName n) (g : Graph) (schemas : List EntitySchema)
    (d d' : FsTree) (hd : WellFormed d) (toFile : Option Str) (as : List Answer)
    (h : D.add g schemas d toFile as = (d', false)) : SameFiles d d' := by
  unfold Dialogue.add at h
  split at h
  · cases h
    exact fun l u hu => Iff.rfl
  · next e target rest he =>
    obtain ⟨sc, chosen, -, ht, -⟩ := C100_entity D g schemas toFile as rest e target he
    subst ht
    obtain ⟨a1, a2, -⟩ := cliAppend_spec hd (dslPath_valid hws _ _) h
    exact (sameFiles_iff hd a1).2 (a2 rfl)

/-- C104: after a dialogue that succeeded with the schemas of the workspace and a source file of the workspace as target,
the target file ends with the block of the entity; if the grammar reads the block and the values are legible, the files
build and hold the entities that they held before and the new one. Missing: as for `C104_entity_partial`, a last line
without a line break (`C72_glued`) and target files outside the workspace. -/
theorem C104_added_partial (D : Dialogue) (grammar : Str → Node) (hT : RegularCase D.shell.lang.cases)
    (hdot : D.shell.alnum '.' = false) (hc : ∀ c ∈ D.currencies, D.shell.lang.knownCurrency c = true ∧ ' ' ∉ c)
    (hlow : ∀ s, D.shell.lang.env.lower (trim (D.shell.lang.env.lower (trim s))) = D.shell.lang.env.lower (trim s))
    (hws : ∀ n ∈ D.shell.ws, ValidName n) (g : Graph) {d d' : FsTree} (hd : WellFormed d)
    (hread : Readable D.shell.ws d) {w w' : Workspace} {b : WorkspaceBuild} (hw : LoadsAs grammar D.shell.ws d w)
    (hb : w.build D.shell.lang = .ok b) (hnd : ∀ sc ∈ b.schemas, '.' ∉ sc.entityType) (toFile : Option Str)
    (as : List Answer) (h : D.add g b.schemas d toFile as = (d', true)) (hw' : LoadsAs grammar D.shell.ws d' w') :
    ∃ e target rest, D.entity g b.schemas toFile as = some (e, target, rest) ∧
      ∀ dirs name, target = .rootDir :: (D.shell.ws ++ dirs ++ [name]).map .normal → FirmName name →
        ∃ old, Has d' (D.shell.ws ++ (dirs ++ [name])) (.file (some (old ++ generateDsl D.shell.lang .default [e]))) ∧
          ((∀ p ∈ e.fields, Legible D.shell.lang p.2) →
            ReadsAppended grammar old (old ++ generateDsl D.shell.lang .default [e]) (entityNode D.shell.lang .default e) →
            ∃ b' e', w'.build D.shell.lang = .ok b' ∧ b'.entities.Perm (b.entities ++ [e']) ∧ b'.schemas.Perm b.schemas ∧
              e'.id = D.shell.lang.cases.composeEntityId e.entityType e.id ∧ e'.entityType = e.entityType ∧
              List.Forall₂ (fun p q => q.1 = p.1 ∧ ReadAsEntered D.shell.ws target p.2 q.2) e.fields e'.fields) := by
  unfold Dialogue.add at h
  split at h
  · cases h
  · next e target rest he =>
    refine ⟨e, target, rest, he, fun dirs name ht hname => ?_⟩
    obtain ⟨sc, chosen, h1, htt, -⟩ := C100_entity D g b.schemas toFile as rest e target he
    have hvalid := dslPath_valid hws toFile sc.entityType
    rw [← htt] at hvalid
    obtain ⟨a1, -, a3⟩ := cliAppend_spec hd hvalid h
    have hloc : lexicalPlace [] target = D.shell.ws ++ (dirs ++ [name]) := by
      rw [ht, ← List.append_assoc]
      exact lexicalPlace_normal [] _
    rw [hloc] at a3 hvalid
    rcases a3 rfl with ⟨b1, -⟩ | ⟨old, b1, b2⟩
    · exact absurd ((has_iff_lookup hd).2 (leafAt_eq_some.1 b1).1) (hread.2.2 dirs name hname)
    have hnew : Has d' (D.shell.ws ++ (dirs ++ [name])) (.file (some (old ++ generateDsl D.shell.lang .default [e]))) := by
      have := b1 (D.shell.ws ++ (dirs ++ [name]))
      rw [if_pos rfl] at this
      exact (has_iff_lookup a1).2 (leafAt_eq_some.1 this).1
    have hold : Has d (D.shell.ws ++ (dirs ++ [name])) (.file (some old)) ∨
        (old = [] ∧ ∀ u, NotDir u → ¬ Has d (D.shell.ws ++ (dirs ++ [name])) u) := by
      rcases b2 with ⟨e1, e2⟩ | e2
      · right
        refine ⟨e1, fun u hu hh => ?_⟩
        rw [leafAt_eq_some.2 ⟨(has_iff_lookup hd).1 hh, hu⟩] at e2
        cases e2
      · left; exact (has_iff_lookup hd).2 (leafAt_eq_some.1 e2).1
    have hrest : ∀ l u, l ≠ D.shell.ws ++ (dirs ++ [name]) → NotDir u → (Has d l u ↔ Has d' l u) := by
      intro l u hl hu
      have := b1 l
      rw [if_neg hl] at this
      rw [has_iff_lookup hd, has_iff_lookup a1]
      have k1 := leafAt_eq_some (d := d) (u := u) (loc := l)
      have k2 := leafAt_eq_some (d := d') (u := u) (loc := l)
      rw [this] at k2
      exact ⟨fun hh => (k2.1 (k1.2 ⟨hh, hu⟩)).1, fun hh => (k1.1 (k2.2 ⟨hh, hu⟩)).1⟩
    refine ⟨old, hnew, fun hl hg => ?_⟩
    have hbl := append_blocks hd a1 hw hw' hname hold hnew hrest hg
    have hk : (entityNode D.shell.lang .default e).kind = "entity_block".toList := rfl
    have hbe := hbl "entity_block"
    rw [if_pos hk] at hbe
    have hbs := hbl "schema_block"
    rw [if_neg (by rw [hk]; decide), List.append_nil] at hbs
    subst ht
    obtain ⟨e', hr, m1, m2, m3⟩ := C104_entity_partial D hT hdot hc g b.schemas
      (fun sc hs => ⟨(build_schema_ok hb hs).1, build_schema_types hT hb hs, hnd sc hs⟩) toFile as rest e
      (fun n hn => hvalid n (by simp only [List.mem_append] at hn ⊢; exact .inr hn)) he hl
    obtain ⟨sc', hsc', hconf⟩ := C99_built D hb hlow g toFile as rest e _ he
    have hconf' := conforms_read m2 m3 hconf
    obtain ⟨b', hb'⟩ := append_builds hb hr ⟨sc', hsc', hconf'.1.symm, hconf'⟩ hbe hbs
    obtain ⟨e'', n1, n2, n3⟩ := append_built hb hb' hbe hbs
    rw [hr] at n1
    cases n1
    exact ⟨b', e', hb', n2, n3, m1, m2, m3⟩

/-! ## Examples -/

/-- Answers to the questions for a person: the type, the id, a blank and a proper name, yes to the optional fields, an age
that is not a number and one that is. -/
def exAnswers : List Answer :=
  [.pick 0, .text "Carol!".toList, .text " ".toList, .text "Carol".toList, .yes true, .text "old".toList, .text "42".toList]

def exEntered : Entity :=
  ⟨"carol".toList, "person".toList, [("name".toList, .string "Carol".toList), ("age".toList, .integer 42)]⟩

theorem exDialogue_entity : exDialogue.entity Graph.empty [exPersonSchema] (some "people/c.firm".toList) exAnswers =
    some (exEntered, .rootDir :: (exDialogue.shell.ws ++ ["people".toList] ++ ["c.firm".toList]).map .normal, []) := by
  decide +kernel

theorem toLower_cases (c : Char) : c.toLower = c ∨ (65 ≤ c.toNat ∧ c.toNat < 91) := by
  unfold Char.toLower
  split
  · next h =>
    have h2 : c.toNat ≤ 90 := h.2
    exact .inr ⟨h.1, by omega⟩
  · exact .inl rfl

theorem exEnv_normal (s : Str) : exEnv.lower (trim (exEnv.lower (trim s))) = exEnv.lower (trim s) := by
  have hch : ∀ c : Char, isWs c.toLower = isWs c ∧ c.toLower.toLower = c.toLower := by
    intro c
    rcases toLower_cases c with h | ⟨h1, h2⟩
    · rw [h]; exact ⟨rfl, h⟩
    · have key : ∀ n < 91, 65 ≤ n → isWs (Char.ofNat n).toLower = isWs (Char.ofNat n) ∧
          (Char.ofNat n).toLower.toLower = (Char.ofNat n).toLower := by decide
      have := key c.toNat h2 h1
      rwa [Char.ofNat_toNat] at this
  have hdrop : ∀ s : Str, (s.map Char.toLower).dropWhile isWs = (s.dropWhile isWs).map Char.toLower := by
    intro s
    rw [List.dropWhile_map]
    congr 1
    refine congrArg (fun p => List.dropWhile p s) (funext fun c => (hch c).1)
  have htrim : ∀ s : Str, trim (s.map Char.toLower) = (trim s).map Char.toLower := by
    intro s
    unfold trim trimEnd trimStart
    rw [hdrop, ← List.map_reverse, hdrop, ← List.map_reverse]
  show ((trim ((trim s).map Char.toLower)).map Char.toLower) = (trim s).map Char.toLower
  rw [htrim, trim_idem, List.map_map]
  exact List.map_congr_left fun c _ => (hch c).2

example : Conforms exLang.env exPersonSchema exEntered := by
  obtain ⟨sc, h1, h2⟩ := C99_built exDialogue exWorkspace_build (w := exWorkspace) (fun s => exEnv_normal s) _ _ _ _ _ _
    exDialogue_entity
  rwa [List.mem_singleton.1 h1] at h2

theorem exDialogue_schemas : ∀ sc ∈ [exPersonSchema], sc.KeysUnique ∧ IsSnake exDialogue.shell.lang.cases sc.entityType ∧
    '.' ∉ sc.entityType := by
  intro sc hs
  rw [List.mem_singleton.1 hs]
  exact ⟨by unfold EntitySchema.KeysUnique; decide, (C47_unchanged exLang_regular _).1 (by decide), by decide⟩

example : ∃ e', toEntity exLang "people/c.firm".toList (entityNode exLang .default exEntered) = .ok e' ∧
    e'.id = "person.carol".toList ∧ e'.id ≠ exEntered.id := by
  obtain ⟨e', h1, h2, -⟩ := C104_entity_partial exDialogue exLang_regular (by decide)
    (fun c hc => by
      rcases List.mem_cons.1 hc with rfl | hc
      · decide
      · rw [List.mem_singleton.1 hc]; decide)
    Graph.empty _ exDialogue_schemas _ _ _ _ (dirs := ["people".toList]) (name := "c.firm".toList)
    (by
      intro n hn
      rcases List.mem_cons.1 hn with rfl | hn
      · exact ⟨by decide, by decide, by decide, by decide⟩
      · rw [List.mem_singleton.1 hn]; exact ⟨by decide, by decide, by decide, by decide⟩)
    exDialogue_entity
    (by
      intro p hp
      rcases List.mem_cons.1 hp with rfl | hp
      · exact .string (by decide) (by decide)
      · rw [List.mem_singleton.1 hp]; exact .integer _)
  have h3 : e'.id = "person.carol".toList := h2.trans (by decide)
  exact ⟨e', h1, h3, by rw [h3]; decide⟩

example : exDialogue.add Graph.empty [exPersonSchema] (.dir (some [("w".toList, .dir (some []))])) (some "c.firm".toList) exAnswers =
    (.dir (some [("w".toList, .dir (some [("c.firm".toList,
      .file (some "person carol {\n    name = \"Carol\"\n    age = 42\n}\n".toList))]))]), true) := by rfl

example : (exDialogue.add Graph.empty [exPersonSchema] exDisk none (exAnswers.take 4)).2 = false := by decide +kernel

/-- A schema with a reference, and what can be answered to its question. -/
def exTaskSchema : EntitySchema := ⟨"task".toList, [("owner".toList, .new .reference .required 0)]⟩

def exTaskBuild : WorkspaceBuild :=
  ⟨[⟨"person.bob".toList, "person".toList, [("name".toList, .string "Bob".toList)]⟩], [exTaskSchema]⟩

example : exTaskBuild.toGraph.2 = .ok () ∧
    exDialogue.entity exTaskBuild.toGraph.1 exTaskBuild.schemas none
        [.pick 0, .text "t".toList, .text "person.nobody".toList, .text "person.bob.age".toList, .text "person.bob.name".toList, .yes false] =
      some (⟨"t".toList, "task".toList, [("owner".toList, .reference (.field "person.bob".toList "name".toList))]⟩,
        exDialogue.shell.dslPath none "task".toList, []) := by decide +kernel

example : fieldPrompt exDialogue Graph.empty [] (.new .integer .optional 0) [.skip, .yes true] = some (none, [.yes true]) ∧
    fieldPrompt exDialogue Graph.empty [] (.newEnum exEnv .optional 0 ["A".toList]) [.skip, .yes true] = none ∧
    fieldPrompt exDialogue Graph.empty [] (.newEnum exEnv .optional 0 ["A".toList]) [.pick 1, .pick 0] =
      some (some (.enum "a".toList), []) := by decide +kernel

example : (exShell.entityToAdd Graph.empty [exPersonSchema] ⟨none, "person".toList, "Carol".toList,
    ["name".toList, "Carol".toList], [], []⟩).map (·.id) = some "person.carol".toList := by decide +kernel

/-- C103: the text of the id may have no letter or digit; then the block has no id. -/
theorem C103_empty : ∃ (as : List Answer) (e : Entity) (target : List PathComp) (rest : List Answer),
    exDialogue.entity Graph.empty [exPersonSchema] none as = some (e, target, rest) ∧ e.id = [] ∧
    generateDsl exLang .default [e] = "person  {\n    name = \"Carol\"\n}\n".toList :=
  ⟨[.pick 0, .text "?!".toList, .text "Carol".toList, .yes false], ⟨[], "person".toList, [("name".toList, .string "Carol".toList)]⟩,
    _, [], (by rfl), rfl, by decide +kernel⟩

end Firm
