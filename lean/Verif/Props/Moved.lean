/-
C158: in which file a definition is written.

`Moved` relates two workspaces that have the same definitions, in the same or in other files. The values do not change
as long as no relative path is moved to another directory.
-/
import Verif.Props.Agreement
import Verif.Props.Paths
import Verif.Props.Reading
import Verif.Spec.Sources

namespace Firm
open Firm.Spec

/-! ## Specification -/

/-- All path literals in the definition are absolute. -/
def Spec.AbsolutePaths (n : Node) : Prop :=
  ∀ m, Inside m n → (∃ c ∈ m.children, c.kind = "path".toList) → ∃ t, m.text = "path\"/".toList ++ t

/-- The two files are in the same directory. -/
def Spec.SameDirectory (rel rel' : Str) : Prop := parentComps rel = parentComps rel'

/-- A definition in one file and the same definition in another one, from which it looks the same. -/
def Spec.SameDefinition (b b' : Str × Node) : Prop :=
  b.2 = b'.2 ∧ (SameDirectory b.1 b'.1 ∨ AbsolutePaths b.2)

/-- The two workspaces have the same definitions, in whatever files and in whatever order. -/
def Spec.Moved (w w' : Workspace) : Prop :=
  ∀ kind ∈ ["entity_block", "schema_block"], ∃ l,
    List.Forall₂ SameDefinition (blocksOf kind w) l ∧ l.Perm (blocksOf kind w')

/-! ## Values -/

theorem pathLiteral_absolute (t : Str) : startsWith (pathLiteralText ("path\"/".toList ++ t)) ['/'] = true := by
  have h1 : strReplace "path\"".toList [] ("path\"/".toList ++ t) = '/' :: strReplace "path\"".toList [] t := by
    show replaceGo "path\"".toList [] 0 ('p' :: ("ath\"".toList ++ ('/' :: t))) = _
    have hs : startsWith ('p' :: ("ath\"".toList ++ ('/' :: t))) "path\"".toList = true := by
      rw [startsWith_iff]; exact ⟨_, rfl⟩
    have hs' : startsWith ('/' :: t) "path\"".toList = false := by rfl
    unfold replaceGo
    rw [if_pos hs]
    have := replaceGo_skip "path\"".toList [] "ath\"".toList ('/' :: t)
    show [] ++ replaceGo "path\"".toList [] "ath\"".toList.length ("ath\"".toList ++ ('/' :: t)) = _
    rw [this, List.nil_append]
    conv => lhs; unfold replaceGo
    rw [if_neg (by rw [hs']; exact Bool.noConfusion)]
    rfl
  unfold pathLiteralText
  rw [h1]
  generalize strReplace "path\"".toList [] t = u
  unfold trimMatches
  have h2 : ('/' :: u).dropWhile (· == '"') = '/' :: u := rfl
  rw [h2, List.reverse_cons, startsWith_iff]
  refine ⟨((u.reverse.dropWhile (· == '"'))).reverse, ?_⟩
  rw [List.dropWhile_append]
  split
  · next h =>
    rw [List.isEmpty_iff.1 h]
    rfl
  · simp

theorem parsePath_same {raw rel rel' : Str} (h : SameDirectory rel rel' ∨ ∃ t, raw = "path\"/".toList ++ t) :
    parsePath raw rel = parsePath raw rel' := by
  unfold parsePath resolvePath
  rcases h with h | ⟨t, rfl⟩
  · rw [show parentComps rel = parentComps rel' from h]
  · rw [if_pos (pathLiteral_absolute t), if_pos (pathLiteral_absolute t)]

theorem Spec.Inside.child {m c n : Node} (hc : c ∈ n.children) (h : Inside m c) : Inside m n := by
  cases n
  exact .under hc h

theorem Spec.Inside.trans {a b c : Node} (h1 : Inside a b) (h2 : Inside b c) : Inside a c := by
  induction h2 with
  | here => exact h1
  | under hc _ ih => exact .under hc ih

theorem absolute_below {m n : Node} (h : AbsolutePaths n) (hm : Inside m n) : AbsolutePaths m :=
  fun k hk hp => h k (hk.trans hm) hp

theorem absolute_child {m n : Node} (h : AbsolutePaths n) (hm : m ∈ n.children) : AbsolutePaths m :=
  absolute_below h (.child hm (.here m))

theorem parseLeaf_same (L : Lang) {rel rel' kind raw : Str}
    (h : SameDirectory rel rel' ∨ (kind = "path".toList → ∃ t, raw = "path\"/".toList ++ t)) :
    parseLeaf L rel kind raw = parseLeaf L rel' kind raw := by
  unfold parseLeaf
  by_cases hk : kind = "path".toList
  · rw [parsePath_same (h.imp id fun h => h hk)]
  · simp only [if_neg hk]

mutual
theorem fromNode_same (L : Lang) {rel rel' : Str} : ∀ n : Node, SameDirectory rel rel' ∨ AbsolutePaths n →
    fromNode L rel n = fromNode L rel' n
  | .mk _ _ [], _ => rfl
  | .mk k raw (.mk kind t items :: rest), h => by
    simp only [fromNode]
    split
    · rw [fromItems_same L items fun i hi => h.imp id fun h =>
        absolute_child (absolute_child h (m := .mk kind t items) (by simp [Node.children])) hi]
    · exact parseLeaf_same L (h.imp id fun h hk =>
        h _ (.here _) ⟨.mk kind t items, by simp [Node.children], hk⟩)
theorem fromItems_same (L : Lang) {rel rel' : Str} : ∀ ns : List Node,
    (∀ n ∈ ns, SameDirectory rel rel' ∨ AbsolutePaths n) → fromItems L rel ns = fromItems L rel' ns
  | [], _ => rfl
  | n :: ns, h => by
    simp only [fromItems]
    rw [fromNode_same L n (h n (List.mem_cons_self ..)),
      fromItems_same L ns fun m hm => h m (List.mem_cons_of_mem _ hm)]
end

theorem childOfKind_child {n c : Node} {kind : String} (h : n.childOfKind kind = some c) : c ∈ n.children :=
  List.mem_of_find?_eq_some h

theorem fieldValue_same (L : Lang) {rel rel' : Str} {n : Node} (h : SameDirectory rel rel' ∨ AbsolutePaths n) :
    fieldValue L rel n = fieldValue L rel' n := by
  unfold fieldValue
  cases hc : n.childOfKind "value" with
  | none => rfl
  | some v => exact fromNode_same L v (h.imp id fun h => absolute_child h (childOfKind_child hc))

theorem blockItems_inside {n m : Node} {kind : String} (h : m ∈ n.blockItems kind) : Inside m n := by
  unfold Node.blockItems at h
  split at h
  · cases h
  · next b hb => exact .child (childOfKind_child hb) (.child (List.mem_filter.1 h).1 (.here m))

theorem collectResults_congr {α β ε : Type} {f g : α → Except ε β} {l : List α} (h : ∀ a ∈ l, f a = g a) :
    collectResults f l = collectResults g l := by
  induction l with
  | nil => rfl
  | cons a l ih =>
    simp only [collectResults]
    rw [h a (List.mem_cons_self ..), ih fun b hb => h b (List.mem_cons_of_mem _ hb)]

/-- C158: an entity block gives the same entity in every file of a directory, and without relative paths in every
file at all. -/
theorem C158_entity (L : Lang) {rel rel' : Str} {n : Node} (h : SameDirectory rel rel' ∨ AbsolutePaths n) :
    toEntity L rel n = toEntity L rel' n := by
  unfold toEntity
  rw [collectResults_congr (f := toField L rel) (g := toField L rel') fun m hm => ?_]
  unfold toField
  rw [fieldValue_same L (h.imp id fun h => absolute_below h (blockItems_inside hm))]

theorem findField_inside {n f : Node} {name : String} (h : findFieldByName n name = some f) : Inside f n :=
  blockItems_inside (List.mem_of_find?_eq_some h)

theorem schemaField_same (L : Lang) {rel rel' : Str} {n : Node} (order : Nat)
    (h : SameDirectory rel rel' ∨ AbsolutePaths n) : toSchemaField L rel order n = toSchemaField L rel' order n := by
  have hv : ∀ name f, findFieldByName n name = some f → fieldValue L rel f = fieldValue L rel' f := fun name f hf =>
    fieldValue_same L (h.imp id fun h => absolute_below h (findField_inside hf))
  have h1 : ∀ name, stringField L rel n name = stringField L rel' n name := by
    intro name
    unfold stringField
    cases hf : findFieldByName n name with
    | none => rfl
    | some f => dsimp only; rw [hv name f hf]
  have h2 : requiredFlag L rel n = requiredFlag L rel' n := by
    unfold requiredFlag
    cases hf : findFieldByName n "required" with
    | none => rfl
    | some f => dsimp only; rw [hv _ f hf]
  have h3 : allowedValuesOf L rel n = allowedValuesOf L rel' n := by
    unfold allowedValuesOf
    cases hf : findFieldByName n "allowed_values" with
    | none => rfl
    | some f => dsimp only; rw [hv _ f hf]
  unfold toSchemaField
  rw [h1, h1, h2, h3]

/-- C158: the same for a schema block. -/
theorem C158_schema (L : Lang) {rel rel' : Str} {n : Node} (h : SameDirectory rel rel' ∨ AbsolutePaths n) :
    toSchema L rel n = toSchema L rel' n := by
  unfold toSchema
  cases schemaName n with
  | none => rfl
  | some name =>
    dsimp only
    have hm : ∀ m ∈ schemaFields n, SameDirectory rel rel' ∨ AbsolutePaths m := fun m hm =>
      h.imp id fun h => absolute_below h (blockItems_inside (List.mem_filter.1 hm).1)
    generalize schemaFields n = ms at hm
    generalize EntitySchema.new (L.cases.snake name) = s
    generalize 0 = k
    induction ms generalizing s k with
    | nil => rfl
    | cons m ms ih =>
      simp only [toSchemaFields]
      rw [schemaField_same L k (hm m (List.mem_cons_self ..))]
      cases toSchemaField L rel' k m with
      | error e => rfl
      | ok p => exact ih (fun x hx => hm x (List.mem_cons_of_mem _ hx)) _ _

/-! ## Workspaces -/

theorem forall₂_same {β ε : Type} {f : Str × Node → Except ε β} (hf : ∀ b b', SameDefinition b b' → f b = f b')
    {l l' : List (Str × Node)} (h : List.Forall₂ SameDefinition l l') {u : List β}
    (hu : List.Forall₂ (fun b x => f b = .ok x) l u) : List.Forall₂ (fun b x => f b = .ok x) l' u := by
  induction h generalizing u with
  | nil => cases hu; exact .nil
  | cons hb _ ih =>
    cases hu with
    | cons h1 h2 => exact .cons (hf _ _ hb ▸ h1) (ih h2)

/-- C158 without relative paths that are moved to another directory: if a workspace builds, then every workspace with
the same definitions in other files builds, with the same entities and the same schemas. -/
theorem C158_build_partial (L : Lang) {w w' : Workspace} (hm : Moved w w') {b : WorkspaceBuild} (h : w.build L = .ok b) :
    ∃ b', w'.build L = .ok b' ∧ b.entities.Perm b'.entities ∧ b.schemas.Perm b'.schemas := by
  have hv := (C41_build L w b.entities b.schemas).1 h
  obtain ⟨le, he1, he2⟩ := hm "entity_block" (by simp)
  obtain ⟨ls, hs1, hs2⟩ := hm "schema_block" (by simp)
  have hes := forall₂_same (f := fun b : Str × Node => toEntity L b.1 b.2)
    (fun b b' hb => by obtain ⟨h1, h2⟩ := hb; rw [← h1]; exact C158_entity L h2) he1 hv.entities
  have hss := forall₂_same (f := fun b : Str × Node => toSchema L b.1 b.2)
    (fun b b' hb => by obtain ⟨h1, h2⟩ := hb; rw [← h1]; exact C158_schema L h2) hs1 hv.schemas
  obtain ⟨es, k1, k2⟩ := forall₂_perm (f := fun b : Str × Node => toEntity L b.1 b.2) he2 hes
  obtain ⟨ss, k3, k4⟩ := forall₂_perm (f := fun b : Str × Node => toSchema L b.1 b.2) hs2 hss
  refine ⟨⟨es, ss⟩, (C41_build L w' es ss).2 ⟨k3, k1, ?_, ?_⟩, k2, k4⟩
  · exact (k4.map _).nodup_iff.1 hv.oneSchema
  · intro e he
    obtain ⟨s, hs, hc⟩ := hv.checked e (k2.mem_iff.2 he)
    exact ⟨s, k4.mem_iff.1 hs, hc⟩

theorem SameDefinition.symm' {b b' : Str × Node} (h : SameDefinition b b') : SameDefinition b' b :=
  ⟨h.1.symm, h.2.imp Eq.symm fun ha => h.1 ▸ ha⟩

/-- C158: it does not matter which of the two comes first. -/
theorem C158_symmetric {w w' : Workspace} (h : Moved w w') : Moved w' w := by
  intro kind hk
  obtain ⟨l, h1, h2⟩ := h kind hk
  have h3 : List.Forall₂ SameDefinition l (blocksOf kind w) :=
    (h1.imp fun _ _ hb => SameDefinition.symm' hb).flip.imp fun _ _ hb => hb
  obtain ⟨l', k1, k2⟩ := List.perm_comp_forall₂ h2.symm h3
  exact ⟨l', k1, k2⟩

/-- C158: if one of the two does not build, the other one does not either. -/
theorem C158_failure_partial (L : Lang) {w w' : Workspace} (hm : Moved w w') :
    (∃ e, w.build L = .error e) ↔ ∃ e, w'.build L = .error e := by
  have key : ∀ w w' : Workspace, Moved w w' → (∃ e, w.build L = .error e) → ∃ e, w'.build L = .error e := by
    rintro w w' hm ⟨e, he⟩
    cases hb : w'.build L with
    | error e => exact ⟨e, rfl⟩
    | ok b =>
      obtain ⟨b', h, _⟩ := C158_build_partial L (C158_symmetric hm) hb
      rw [he] at h
      cases h
  exact ⟨key w w' hm, key w' w (C158_symmetric hm)⟩

/-- C158: two servers whose disks have the same definitions in other files serve the same: the same entities are found
under the same ids, with the same relations, and queries without `limit` and arithmetic give the same (for those, see
C95). -/
theorem C158_served_partial (H : Host) (s s' : Server) (hs : Serves H s) (hs' : Serves H s')
    (hm : Moved s.state.workspace s'.state.workspace) :
    (∀ id, s.state.graph.getEntity id = s'.state.graph.getEntity id) ∧
    (∀ id dir, s.state.graph.getRelated id dir = s'.state.graph.getRelated id dir) ∧
    (∀ v, s.state.graph.resolveFieldReference v = s'.state.graph.resolveFieldReference v) ∧
    s.state.build.schemas.Perm s'.state.build.schemas ∧
    ∀ (rt rt' : Runtime) (q : QTree) (r r' : QueryResult), ValidTree q → (∀ o ∈ q.operations, NoLimit o) →
      NoArithmetic q.aggregation → runQuery H.lang rt s.state.graph (showQuery q) = .ok r →
      runQuery H.lang rt' s'.state.graph (showQuery q) = .ok r' → SameResult r r' := by
  obtain ⟨b', h1, h2, h3⟩ := C158_build_partial H.lang hm hs.2.1
  rw [hs'.2.1] at h1
  cases h1
  obtain ⟨hg, _, hacc, _⟩ := toGraph_run hs.2.2
  obtain ⟨hg', _, hacc', _⟩ := toGraph_run hs'.2.2
  have hp : (accepted (s.state.build.entities.map .add)).Perm (accepted (s'.state.build.entities.map .add)) := by
    rw [hacc, hacc']; exact h2
  obtain ⟨k1, k2, _, k3, _⟩ := C08_order_independent _ _ hp
  rw [hg, hg']
  exact ⟨k1, k2, k3, h3, fun rt rt' q r r' hq ho ha hr hr' => C95_same_partial H.lang rt rt' hp hq ho ha hr hr'⟩

/-! ## Renaming files -/

theorem exists_related {α β : Type} {R : α → β → Prop} {l : List α} (h : ∀ a ∈ l, ∃ b, R a b) :
    ∃ l', List.Forall₂ R l l' := by
  induction l with
  | nil => exact ⟨[], .nil⟩
  | cons a l ih =>
    obtain ⟨b, hb⟩ := h a (List.mem_cons_self ..)
    obtain ⟨l', hl⟩ := ih fun x hx => h x (List.mem_cons_of_mem _ hx)
    exact ⟨b :: l', .cons hb hl⟩

theorem forall₂_mem {α β : Type} {R : α → β → Prop} {l : List α} {l' : List β} (h : List.Forall₂ R l l') :
    (∀ a ∈ l, ∃ b ∈ l', R a b) ∧ ∀ b ∈ l', ∃ a ∈ l, R a b := by
  induction h with
  | nil => exact ⟨fun _ h => (by cases h), fun _ h => (by cases h)⟩
  | @cons a b l l' hab _ ih =>
    constructor
    · intro x hx
      rcases List.mem_cons.1 hx with rfl | hx
      · exact ⟨b, List.mem_cons_self .., hab⟩
      · obtain ⟨y, hy, hr⟩ := ih.1 x hx
        exact ⟨y, List.mem_cons_of_mem _ hy, hr⟩
    · intro y hy
      rcases List.mem_cons.1 hy with rfl | hy
      · exact ⟨a, List.mem_cons_self .., hab⟩
      · obtain ⟨x, hx, hr⟩ := ih.2 y hy
        exact ⟨x, List.mem_cons_of_mem _ hx, hr⟩

theorem forall₂_nodup {α β : Type} {R : α → β → Prop} (hR : ∀ a a' b, R a b → R a' b → a = a') {l : List α} {l' : List β}
    (h : List.Forall₂ R l l') (hl : l.Nodup) : l'.Nodup := by
  induction h with
  | nil => exact .nil
  | @cons a b l l' hab hrest ih =>
    rw [List.nodup_cons] at hl ⊢
    refine ⟨fun hb => ?_, ih hl.2⟩
    obtain ⟨a', ha', hr⟩ := (forall₂_mem hrest).2 b hb
    rw [hR a a' b hab hr] at hl
    exact hl.1 ha'

theorem names_append {a b : List Str} (ha : ∀ n ∈ a, ValidName n) (hb : ∀ n ∈ b, ValidName n) :
    ∀ n ∈ a ++ b, ValidName n := fun n hn => (List.mem_append.1 hn).elim (ha n) (hb n)

/-- The files of the second disk are those of the first one under other names: each is in the same directory as
before, or none of its definitions has a relative path. -/
structure Spec.Renamed (grammar : Str → Node) (ws : List Str) (d d' : FsTree) (ρ : List Str → List Str) : Prop where
  files : ∀ loc' text, FirmFile d' ws loc' text ↔ ∃ loc, FirmFile d ws loc text ∧ ρ loc = loc'
  injective : ∀ loc₁ text₁ loc₂ text₂, FirmFile d ws loc₁ text₁ → FirmFile d ws loc₂ text₂ → ρ loc₁ = ρ loc₂ → loc₁ = loc₂
  fits : ∀ loc text, FirmFile d ws loc text →
    (∃ dirs n n', loc = dirs ++ [n] ∧ ρ loc = dirs ++ [n']) ∨ ∀ c ∈ (grammar text).children, AbsolutePaths c

/-- C158: renaming files within their directories, and moving files without relative paths anywhere, moves their
definitions. -/
theorem C158_rename {grammar : Str → Node} {ws : List Str} {d d' : FsTree} {ρ : List Str → List Str}
    (hd : WellFormed d) (hd' : WellFormed d') (h : Renamed grammar ws d d' ρ) {w w' : Workspace}
    (hw : LoadsAs grammar ws d w) (hw' : LoadsAs grammar ws d' w') : Moved w w' := by
  let R : Str × SourceFile → Str × SourceFile → Prop := fun p q => ∃ loc text, FirmFile d ws loc text ∧
    p = ('/' :: joinWith ['/'] (ws ++ loc), ⟨grammar text, joinWith ['/'] loc⟩) ∧
    q = ('/' :: joinWith ['/'] (ws ++ ρ loc), ⟨grammar text, joinWith ['/'] (ρ loc)⟩)
  have hR : ∀ p ∈ w, ∃ q, R p q := by
    rintro ⟨path, f⟩ hp
    obtain ⟨loc, text, h1, h2, h3⟩ := (hw.2 path f).1 hp
    exact ⟨_, loc, text, h1, by rw [h2, h3], rfl⟩
  obtain ⟨v, hv⟩ := exists_related hR
  have hinj : ∀ p p' q, R p q → R p' q → p = p' := by
    rintro p p' q ⟨loc, text, h1, h2, h3⟩ ⟨loc', text', k1, k2, k3⟩
    rw [h3] at k3
    simp only [Prod.mk.injEq, SourceFile.mk.injEq] at k3
    obtain ⟨e0, e1, _⟩ := k3
    have f1 := (h.files (ρ loc) text).2 ⟨loc, h1, rfl⟩
    have f2 := (h.files (ρ loc') text').2 ⟨loc', k1, rfl⟩
    obtain ⟨v0, v1, _⟩ := valid_of_firmFile hd' f1
    obtain ⟨_, v2, _⟩ := valid_of_firmFile hd' f2
    have : ρ loc = ρ loc' := List.append_cancel_left (placeText_inj (names_append v0 v1) (names_append v0 v2) e0)
    have hl := h.injective loc text loc' text' h1 k1 this
    rw [h2, k2, hl, e1]
  have hnd : v.Nodup := forall₂_nodup hinj hv (List.Nodup.of_map _ hw.1)
  have hperm : v.Perm w' := by
    refine (List.perm_ext_iff_of_nodup hnd (List.Nodup.of_map _ hw'.1)).2 fun q => ?_
    rw [show q = (q.1, q.2) from rfl, hw'.2]
    constructor
    · intro hq
      obtain ⟨p, _, loc, text, h1, _, h3⟩ := (forall₂_mem hv).2 _ hq
      rw [show (q.1, q.2) = q from rfl] at h3
      exact ⟨ρ loc, text, (h.files _ _).2 ⟨loc, h1, rfl⟩, by rw [h3], by rw [h3]⟩
    · rintro ⟨loc', text, h1, h2, h3⟩
      obtain ⟨loc, h4, rfl⟩ := (h.files _ _).1 h1
      have hp : (('/' :: joinWith ['/'] (ws ++ loc), ⟨grammar text, joinWith ['/'] loc⟩) : Str × SourceFile) ∈ w :=
        (hw.2 _ _).2 ⟨loc, text, h4, rfl, rfl⟩
      obtain ⟨q', hq', hr⟩ := (forall₂_mem hv).1 _ hp
      obtain ⟨loc₂, text₂, k1, k2, k3⟩ := hr
      simp only [Prod.mk.injEq, SourceFile.mk.injEq] at k2
      obtain ⟨e0, e1, _⟩ := k2
      obtain ⟨v0, v1, _⟩ := valid_of_firmFile hd h4
      obtain ⟨_, v2, _⟩ := valid_of_firmFile hd k1
      have hl : loc = loc₂ := List.append_cancel_left (placeText_inj (names_append v0 v1) (names_append v0 v2) e0)
      rw [h2, h3, hl, e1, ← k3]
      exact hq'
  intro kind _
  refine ⟨blocksOf kind v, ?_, hperm.flatMap_right _⟩
  unfold blocksOf
  clear hnd hperm hinj hR hw hw'
  induction hv with
  | nil => exact .nil
  | cons hpq _ ih =>
    rw [List.flatMap_cons, List.flatMap_cons]
    refine List.rel_append ?_ ih
    obtain ⟨loc, text, h1, rfl, rfl⟩ := hpq
    obtain ⟨_, hloc, _⟩ := valid_of_firmFile hd h1
    obtain ⟨_, hloc', _⟩ := valid_of_firmFile hd' ((h.files (ρ loc) text).2 ⟨loc, h1, rfl⟩)
    have hsame : ∀ c ∈ (grammar text).children,
        SameDefinition (joinWith ['/'] loc, c) (joinWith ['/'] (ρ loc), c) := by
      intro c hc
      refine ⟨rfl, ?_⟩
      rcases h.fits loc text h1 with ⟨dirs, n, n', e1, e2⟩ | habs
      · left
        show parentComps _ = parentComps _
        rw [e2] at hloc' ⊢
        rw [e1] at hloc ⊢
        rw [parentComps_source hloc, parentComps_source hloc']
      · exact .inr (habs c hc)
    dsimp only
    generalize hcs : (grammar text).children.filter (fun c => decide (c.kind = kind.toList)) = cs
    have hin : ∀ c ∈ cs, c ∈ (grammar text).children := fun c hc => by
      rw [← hcs] at hc
      exact (List.mem_filter.1 hc).1
    clear hcs
    induction cs with
    | nil => exact .nil
    | cons c cs ih' =>
      exact .cons (hsame c (hin c (List.mem_cons_self ..))) (ih' fun x hx => hin x (List.mem_cons_of_mem _ hx))

/-! ## Cases -/

/-- The contract of a deal, next to the file. -/
def exContract : Node := exEntityNode "deal" "a" [exFieldNode "contract" "path" "path\"c.pdf\""]

/-- C158 is false of relative paths: the same definition in a file of another directory names another contract. -/
theorem C158_path : ∃ (L : Lang) (w w' : Workspace) (b b' : WorkspaceBuild),
    (∀ kind, (blocksOf kind w).map (·.2) = (blocksOf kind w').map (·.2)) ∧
    w.build L = .ok b ∧ w'.build L = .ok b' ∧
    b.entities.map (·.fields) = [[("contract".toList, .path "./c.pdf".toList)]] ∧
    b'.entities.map (·.fields) = [[("contract".toList, .path "./old/c.pdf".toList)]] := by
  refine ⟨exLang, [exFile "a.firm" [exSchemaNode "deal" [("contract", "path", "true")], exContract]],
    [exFile "old/a.firm" [exSchemaNode "deal" [("contract", "path", "true")], exContract]],
    ⟨[⟨"deal.a".toList, "deal".toList, [("contract".toList, .path "./c.pdf".toList)]⟩],
      ((Workspace.build exLang [exFile "a.firm" [exSchemaNode "deal" [("contract", "path", "true")]]]).toOption.getD
        ⟨[], []⟩).schemas⟩,
    ⟨[⟨"deal.a".toList, "deal".toList, [("contract".toList, .path "./old/c.pdf".toList)]⟩],
      ((Workspace.build exLang [exFile "a.firm" [exSchemaNode "deal" [("contract", "path", "true")]]]).toOption.getD
        ⟨[], []⟩).schemas⟩, fun kind => ?_, by decide +kernel, by decide +kernel, rfl, rfl⟩
  unfold blocksOf
  simp [exFile, Function.comp_def]

/-- What `C158_build_partial` says of the example: the second person, and with them their age, moves from one file to
the other; the files are in one directory. -/
example : Moved exWorkspace
    [exFile "b.firm" [exSchemaNode "person" [("name", "string", "true"), ("age", "integer", "false")]],
     exFile "c.firm" [exEntityNode "person" "alice" [exFieldNode "name" "string" "\"Alice\""],
      exEntityNode "person" "bob" [exFieldNode "name" "string" "\"Bob\"", exFieldNode "age" "number" "42"]]] := by
  intro kind hk
  rcases List.mem_cons.1 hk with rfl | hk
  · refine ⟨_, ?_, List.Perm.refl _⟩
    exact .cons ⟨rfl, .inl (by rfl)⟩ (.cons ⟨rfl, .inl (by rfl)⟩ .nil)
  · rw [List.mem_singleton.1 hk]
    refine ⟨_, ?_, List.Perm.refl _⟩
    exact .cons ⟨rfl, .inl (by rfl)⟩ .nil

/-- A disk whose workspace `/w` has one file. -/
def exSingle (n t : Str) : FsTree := .dir (some [("w".toList, .dir (some [(n, .file (some t))]))])

theorem exSingle_firm {n t : Str} (hn : FirmName n) (loc : List Str) (text : Str) :
    FirmFile (exSingle n t) ["w".toList] loc text ↔ loc = [n] ∧ text = t := by
  constructor
  · rintro ⟨_, h⟩
    cases h with
    | inside hm h =>
      rw [List.mem_singleton] at hm
      cases hm
      generalize hl : ([] : List Str) ++ loc = l at h
      have hl' : loc = l := hl
      subst hl'
      cases h with
      | inside hm h =>
        rw [List.mem_singleton] at hm
        cases hm
        cases h
        exact ⟨rfl, rfl⟩
  · rintro ⟨rfl, rfl⟩
    exact ⟨⟨[], _, rfl, hn⟩, .inside (List.mem_singleton.2 rfl) (.inside (List.mem_singleton.2 rfl) (.here _))⟩

/-- What `C158_rename` says of an example: `a.firm` gets the name `old.firm`. -/
example (grammar : Str → Node) : Renamed grammar ["w".toList] (exSingle "a.firm".toList "S".toList)
    (exSingle "old.firm".toList "S".toList) fun _ => ["old.firm".toList] := by
  have ha : FirmName "a.firm".toList := ⟨"a".toList, by decide, by decide⟩
  have hb : FirmName "old.firm".toList := ⟨"old".toList, by decide, by decide⟩
  refine ⟨fun loc' text => ?_, fun l₁ t₁ l₂ t₂ h₁ h₂ _ => ?_, fun loc text h => .inl ?_⟩
  · rw [exSingle_firm hb]
    constructor
    · rintro ⟨rfl, rfl⟩
      exact ⟨_, (exSingle_firm ha _ _).2 ⟨rfl, rfl⟩, rfl⟩
    · rintro ⟨loc, h, rfl⟩
      exact ⟨rfl, ((exSingle_firm ha _ _).1 h).2⟩
  · rw [((exSingle_firm ha _ _).1 h₁).1, ((exSingle_firm ha _ _).1 h₂).1]
  · exact ⟨[], "a.firm".toList, "old.firm".toList, ((exSingle_firm ha _ _).1 h).1, rfl⟩

end Firm
