import Verif.Model.Suggest
import Verif.Props.Prompted
import Verif.Props.Paths

/-! # Properties of the suggestions of the prompts (C129, C130) -/

namespace Firm

open Spec

variable {T : CaseTable}

/-! ## Normalising a part of an identifier -/

theorem allWords_delim (hT : RegularCase T) (s : Str) {d : Char} (hd : isDelim d = true) :
    T.allWords (s ++ [d]) = T.allWords s ++ [[]] := by
  induction s with
  | nil =>
    show T.allWords [d] = _
    unfold CaseTable.allWords
    rw [splitWords_cons, if_pos hd]
    rfl
  | cons c s ih =>
    show T.allWords (c :: (s ++ [d])) = _
    unfold CaseTable.allWords
    rw [splitWords_cons, splitWords_cons]
    cases hc : isDelim c with
    | true => rw [if_pos rfl, if_pos rfl, ih]; rfl
    | false =>
      rw [if_neg (by exact Bool.noConfusion), if_neg (by exact Bool.noConfusion)]
      cases s with
      | nil =>
        dsimp only [List.nil_append]
        rw [cut_delim hT (.inl hd), if_neg (by exact Bool.noConfusion), splitWords_cons, if_pos hd]
        rfl
      | cons x r =>
        dsimp only [List.cons_append]
        have hcut : T.cut c x (r ++ [d]).head? = T.cut c x r.head? := by
          cases r with
          | nil =>
            unfold CaseTable.cut
            simp [(hT.delim d (.inl hd)).2]
          | cons y r => rfl
        rw [hcut]
        rw [List.cons_append] at ih
        unfold CaseTable.allWords at ih ⊢
        obtain ⟨i1, i2⟩ := List.cons.inj ih
        split
        · dsimp only
          rw [i1, i2]
          rfl
        · dsimp only
          rw [i1, i2]
          rfl

/-- A delimiter at the end does not count. -/
theorem snake_delim (hT : RegularCase T) (s : Str) {d : Char} (hd : isDelim d = true) : T.snake (s ++ [d]) = T.snake s := by
  unfold CaseTable.snake CaseTable.words
  have h := allWords_delim hT s hd
  unfold CaseTable.allWords at h
  rw [h, List.filter_append]
  simp

theorem noNeighbours_prefix {R : Char → Char → Prop} {p s : Str} (hp : p <+: s) (h : NoNeighbours R s) : NoNeighbours R p := by
  rw [noNeighbours_iff] at h ⊢
  obtain ⟨t, rfl⟩ := hp
  exact h.left_of_append

/-- Normalising the beginning of a normal identifier gives a beginning of it. -/
theorem snake_prefix (hT : RegularCase T) {s p : Str} (hs : IsSnake T s) (hp : p <+: s) : T.snake p <+: p := by
  have part : ∀ q, q <+: s → q.getLast? ≠ some '_' → T.snake q = q := by
    intro q hq hl
    refine snake_fixed hT ⟨fun c hc => hs.chars c (hq.subset hc), ?_, hl, noNeighbours_prefix hq hs.doubled,
      noNeighbours_prefix hq hs.contact⟩
    have hf := hs.first
    obtain ⟨t, rfl⟩ := hq
    cases q with
    | nil => simp
    | cons c q => simpa using hf
  by_cases hl : p.getLast? = some '_'
  · rcases List.eq_nil_or_concat p with rfl | ⟨q, c, rfl⟩
    · cases hl
    · rw [List.concat_eq_append] at hp hl ⊢
      rw [List.getLast?_concat] at hl
      cases hl
      rw [snake_delim hT q (by decide)]
      have hq : q <+: s := (List.prefix_append q _).trans hp
      rw [part q hq]
      · exact List.prefix_append _ _
      · intro hq'
        rcases List.eq_nil_or_concat q with rfl | ⟨r, c, rfl⟩
        · cases hq'
        · rw [List.concat_eq_append, List.getLast?_concat] at hq'
          cases hq'
          have := noNeighbours_prefix hp hs.doubled
          rw [List.concat_eq_append, List.append_assoc, noNeighbours_iff] at this
          have h2 := this.right_of_append
          simp at h2
  · rw [part p hp hl]

/-! ## C129: references -/

/-- The id of an entity begins with its type when that is normal. -/
theorem compose_snake (hT : RegularCase T) {ty i : Str} (hty : IsSnake T ty) :
    ∃ y, T.composeEntityId ty i = ty ++ '.' :: y ∧ ('.' ∉ i → '.' ∉ y) := by
  obtain ⟨pre, z, h1, h2⟩ := allWords_dot hT ty i
  have hdot : T.lower ['.'] = ['.'] := by
    simp [CaseTable.lower, hT.keep '.' (hT.delim '.' (.inr rfl)).1]
  have hw : ∀ s, T.words s = (T.allWords s).filter (fun w => !w.isEmpty) := fun _ => rfl
  refine ⟨joinUnderscore (((T.splitWords i).1 :: (T.splitWords i).2.filter (fun w => !w.isEmpty)).map T.lower), ?_, ?_⟩
  · have hx : joinUnderscore ((pre.filter (fun w => !w.isEmpty) ++ [z]).map T.lower) = ty := by
      rcases List.eq_nil_or_concat ty with rfl | ⟨q, c, hq⟩
      · have h1' : ([[]] : List Str) = pre ++ [z] := h1
        cases pre with
        | nil => cases h1'; rfl
        | cons p pre => simp at h1'
      · have hz : z ≠ [] := by
          have hl : ∀ c, ty.getLast? = some c → isDelim c = false := by
            intro c' hc'
            have hm := hty.chars c' (List.mem_of_mem_getLast? hc')
            have hu : c' ≠ '_' := by rintro rfl; exact hty.last hc'
            simp [isDelim, hm.2.1, hm.2.2, hu]
          exact splitWords_last h1 hl (by rw [hq]; simp)
        have hs := snake_fixed hT hty
        unfold CaseTable.snake at hs
        rw [hw, h1, List.filter_append] at hs
        simpa [hz] using hs
    unfold CaseTable.composeEntityId
    rw [lower_fixed hT fun c hc => (hty.chars c hc).1]
    conv => rhs; rw [← hx]
    rw [List.map_append, List.map_cons, List.map_cons, List.map_nil, ← join_glue]
    unfold CaseTable.snake
    rw [hw, h2, List.filter_append, List.filter_cons_of_pos (by simp), List.map_append, List.map_cons]
    congr 2
    rw [show z ++ '.' :: (T.splitWords i).1 = z ++ (['.'] ++ (T.splitWords i).1) from rfl, lower_append,
      lower_append, hdot]
    rfl
  · intro hi h
    rcases mem_join h with h | ⟨w, hw, hc⟩
    · exact absurd h (by decide)
    · obtain ⟨v, hv, rfl⟩ := List.mem_map.1 hw
      refine hi ((allWords_ok (t := T) i v ?_).1 _ (dot_mem_lower hT hc)).1
      rcases List.mem_cons.1 hv with h | h
      · exact List.mem_cons.2 (.inl h)
      · exact List.mem_cons.2 (.inr (List.mem_filter.1 h).1)

/-- Every id of an entity has one dot, and the names of fields have none. -/
def Spec.Dotted (es : List Entity) : Prop := ∀ e ∈ es, e.id.count '.' = 1 ∧ ∀ p ∈ e.fields, '.' ∉ p.1

theorem built_id {L : Lang} (hT : RegularCase L.cases) {w : Workspace} {b : WorkspaceBuild} (hb : w.build L = .ok b)
    (hd : Dotted b.entities) {e : Entity} (he : e ∈ b.entities) :
    ∃ y, e.id = e.entityType ++ '.' :: y ∧ '.' ∉ e.entityType ∧ '.' ∉ y ∧ IsSnake L.cases e.id := by
  have hty := build_types hT hb he
  have hv := (C41_build L w b.entities b.schemas).1 hb
  obtain ⟨bl, _, hc⟩ := forall2_left hv.entities e he
  obtain ⟨ty, i, _, _, hid, ht, _⟩ := toEntity_ok hc
  subst ht
  obtain ⟨y, hy, _⟩ := compose_snake hT (i := i) hty
  have h1 := (hd e he).1
  rw [hid, hy, List.count_append, List.count_cons] at h1
  simp only [beq_self_eq_true, if_true] at h1
  refine ⟨y, hid.trans hy, List.count_eq_zero.1 (by omega), List.count_eq_zero.1 (by omega), ?_⟩
  rw [hid]
  exact C47_normal_partial hT _

theorem graph_lists {b : WorkspaceBuild} {g : Graph} (hg : b.toGraph = (g, .ok ())) (t : EntityType) :
    g.listByType t = b.entities.filter fun e => e.entityType = t := by
  obtain ⟨h1, h2, _⟩ := toGraph_run hg
  rw [h1, C03_list_by_type, h2]

theorem graph_gets {b : WorkspaceBuild} {g : Graph} (hg : b.toGraph = (g, .ok ())) {id : EntityId} {e : Entity} :
    g.getEntity id = some e ↔ e ∈ b.entities ∧ e.id = id := by
  obtain ⟨h1, h2, _⟩ := toGraph_run hg
  rw [h1, C01_lookup, h2]

theorem graph_types {b : WorkspaceBuild} {g : Graph} (hg : b.toGraph = (g, .ok ())) {t : EntityType} :
    t ∈ g.getAllEntityTypes ↔ ∃ e ∈ b.entities, e.entityType = t := by
  obtain ⟨h1, h2, _⟩ := toGraph_run hg
  rw [h1, (C03_all_types _).2, h2]

/-- C129: a suggestion with all its parts is accepted as a reference to the entity or field it names; the other
suggestions are types of entities, with a dot. -/
theorem C129_accepted (L : Lang) (hT : RegularCase L.cases) (w : Workspace) (b : WorkspaceBuild) (hb : w.build L = .ok b)
    (g : Graph) (hg : b.toGraph = (g, .ok ())) (hd : Dotted b.entities) (types : List EntityType)
    (htypes : types.Perm g.getAllEntityTypes) (input s : Str) (hs : s ∈ referenceSuggestions L.cases types g input) :
    ∃ e ∈ b.entities, (s = e.entityType ++ ['.'] ∧ input <+: e.entityType) ∨
      (s = e.id ∧ ∀ skippable rest,
        referencePrompt L.cases g skippable (.text s :: rest) = some (some (.reference (.entity e.id)), rest)) ∨
      ∃ p ∈ e.fields, s = e.id ++ '.' :: p.1 ∧ ∀ skippable rest,
        referencePrompt L.cases g skippable (.text s :: rest) = some (some (.reference (.field e.id p.1)), rest) := by
  have hcompose : ∀ e ∈ b.entities, ∃ x y, e.id = x ++ '.' :: y ∧ '.' ∉ x ∧ '.' ∉ y ∧ L.cases.composeEntityId x y = e.id := by
    intro e he
    obtain ⟨y, h1, h2, h3, h4⟩ := built_id hT hb hd he
    refine ⟨_, y, h1, h2, h3, ?_⟩
    rw [h1] at h4 ⊢
    exact compose_parts hT h4
  have hprompt : ∀ (s : Str) (v : FieldValue), referenceExists L.cases g s = true →
      (match splitChar '.' s with
        | [t, i] => some (some (FieldValue.reference (.entity (L.cases.composeEntityId t i))), ([] : List Answer))
        | [t, i, f] => some (some (.reference (.field (L.cases.composeEntityId t i) f)), [])
        | _ => none) = some (some v, []) →
      ∀ skippable rest, referencePrompt L.cases g skippable (.text s :: rest) = some (some v, rest) := by
    intro s v h1 h2 sk rest
    unfold referencePrompt ask
    simp only [takeText, h1, if_true, Asked.andThen]
    split at h2
    · next heq => rw [heq]; simpa using h2
    · next heq => rw [heq]; simpa using h2
    · cases h2
  unfold referenceSuggestions at hs
  split at hs
  · next t hsp =>
    obtain ⟨k, hk, rfl⟩ := List.mem_map.1 hs
    obtain ⟨h1, h2⟩ := List.mem_filter.1 hk
    obtain ⟨e, he, hty⟩ := (graph_types hg).1 (htypes.mem_iff.1 h1)
    subst hty
    refine ⟨e, he, .inl ⟨rfl, ?_⟩⟩
    have hin : input = t := by
      have := joinWith_splitChar '.' input
      rw [hsp] at this
      exact this.symm
    rw [hin]
    exact List.isPrefixOf_iff_prefix.1 h2
  · next t i hsp =>
    obtain ⟨e, hm, rfl⟩ := List.mem_map.1 hs
    obtain ⟨h1, h2⟩ := List.mem_filter.1 hm
    rw [graph_lists hg] at h1
    have he := (List.mem_filter.1 h1).1
    refine ⟨e, he, .inr (.inl ⟨rfl, ?_⟩)⟩
    obtain ⟨x, y, h3, h4, h5, h6⟩ := hcompose e he
    have hsplit : splitChar '.' e.id = [x, y] := by rw [h3, splitChar_append _ h4, splitChar_none h5]
    apply hprompt
    · unfold referenceExists
      rw [hsplit]
      dsimp only
      rw [h6, (graph_gets hg).2 ⟨he, rfl⟩]
      rfl
    · rw [hsplit]
      dsimp only
      rw [h6]
  · next t i f hsp =>
    split at hs
    · next e hget =>
      obtain ⟨p, hm, rfl⟩ := List.mem_map.1 hs
      obtain ⟨h1, h2⟩ := List.mem_filter.1 hm
      obtain ⟨he, _⟩ := (graph_gets hg).1 hget
      refine ⟨e, he, .inr (.inr ⟨p, h1, rfl, ?_⟩)⟩
      obtain ⟨x, y, h3, h4, h5, h6⟩ := hcompose e he
      have hsplit : splitChar '.' (e.id ++ '.' :: p.1) = [x, y, p.1] := by
        rw [h3, List.append_assoc, List.cons_append, splitChar_append _ h4, splitChar_append _ h5,
          splitChar_none ((hd e he).2 p h1)]
      apply hprompt
      · unfold referenceExists
        rw [hsplit]
        dsimp only
        rw [h6, (graph_gets hg).2 ⟨he, rfl⟩]
        dsimp only
        rw [Entity.getField, Option.isSome_map, List.find?_isSome]
        exact ⟨p, h1, by simp⟩
      · rw [hsplit]
        dsimp only
        rw [h6]
    · cases hs
  · cases hs

/-- C129: a type, an entity and a field are suggested as soon as a beginning of its name has been typed, for an entity
the type and for a field the entity at least. -/
theorem C129_offered (L : Lang) (hT : RegularCase L.cases) (w : Workspace) (b : WorkspaceBuild) (hb : w.build L = .ok b)
    (g : Graph) (hg : b.toGraph = (g, .ok ())) (hd : Dotted b.entities) (types : List EntityType)
    (htypes : types.Perm g.getAllEntityTypes) (e : Entity) (he : e ∈ b.entities) :
    (∀ p, p <+: e.entityType → e.entityType ++ ['.'] ∈ referenceSuggestions L.cases types g p) ∧
    (∀ p, e.entityType ++ ['.'] <+: p → p <+: e.id → e.id ∈ referenceSuggestions L.cases types g p) ∧
    ∀ q ∈ e.fields, ∀ p, e.id ++ ['.'] <+: p → p <+: e.id ++ '.' :: q.1 →
      e.id ++ '.' :: q.1 ∈ referenceSuggestions L.cases types g p := by
  obtain ⟨y, h1, h2, h3, h4⟩ := built_id hT hb hd he
  refine ⟨fun p hp => ?_, ?_, ?_⟩
  · unfold referenceSuggestions
    rw [splitChar_none fun h => h2 (hp.subset h)]
    refine List.mem_map.2 ⟨_, List.mem_filter.2 ⟨htypes.mem_iff.2 ((graph_types hg).2 ⟨e, he, rfl⟩), ?_⟩, rfl⟩
    exact List.isPrefixOf_iff_prefix.2 hp
  · rintro p ⟨i, rfl⟩ hp
    have hi : i <+: y := by
      rw [h1, List.append_assoc] at hp
      simpa using hp
    unfold referenceSuggestions
    rw [List.append_assoc, List.singleton_append, splitChar_append _ h2, splitChar_none fun h => h3 (hi.subset h)]
    dsimp only
    refine List.mem_map.2 ⟨e, List.mem_filter.2 ⟨?_, ?_⟩, rfl⟩
    · rw [graph_lists hg]
      exact List.mem_filter.2 ⟨he, by simp⟩
    · rw [List.append_assoc, List.singleton_append] at hp
      have hc : L.cases.composeEntityId e.entityType i = L.cases.snake (e.entityType ++ '.' :: i) := by
        unfold CaseTable.composeEntityId
        rw [lower_fixed hT fun c hc => (h4.chars c (by rw [h1]; simp [hc])).1]
      rw [hc]
      exact List.isPrefixOf_iff_prefix.2 ((snake_prefix hT h4 hp).trans hp)
  · rintro q hq p ⟨f, rfl⟩ hp
    have hf : f <+: q.1 := by
      rw [List.append_assoc] at hp
      simpa using hp
    unfold referenceSuggestions
    have hsplit : splitChar '.' (e.id ++ ['.'] ++ f) = [e.entityType, y, f] := by
      rw [h1, List.append_assoc, List.append_assoc, List.cons_append, splitChar_append _ h2, List.singleton_append,
        splitChar_append _ h3, splitChar_none fun h => (hd e he).2 q hq (hf.subset h)]
    have hc : L.cases.composeEntityId e.entityType y = e.id := by
      rw [h1] at h4 ⊢
      exact compose_parts hT h4
    rw [hsplit]
    dsimp only
    rw [hc, (graph_gets hg).2 ⟨he, rfl⟩]
    dsimp only
    exact List.mem_map.2 ⟨q, List.mem_filter.2 ⟨hq, List.isPrefixOf_iff_prefix.2 hf⟩, rfl⟩

/-- What is accepted need not be suggested: `Person.alice` is accepted, but the types are compared as they are written. -/
theorem C129_capital : ∃ g, WorkspaceBuild.toGraph ⟨exPeople, [exPersonSchema]⟩ = (g, .ok ()) ∧
    referenceExists exLang.cases g "Person.alice".toList = true ∧
    referenceSuggestions exLang.cases g.getAllEntityTypes g "Person.al".toList = [] ∧
    referenceSuggestions exLang.cases g.getAllEntityTypes g "person.AL".toList = ["person.alice".toList] :=
  ⟨(WorkspaceBuild.toGraph ⟨exPeople, [exPersonSchema]⟩).1, by decide +kernel, by decide +kernel, by decide +kernel,
    by decide +kernel⟩

example : RegularCase exLang.cases ∧ exWorkspace.build exLang = .ok ⟨exPeople, [exPersonSchema]⟩ ∧ Dotted exPeople :=
  ⟨asciiTable_regular, exWorkspace_build, by unfold Dotted; decide⟩

/-! ## C130: paths -/

/-- A slash at the end does not count. -/
theorem components_slash {s : Str} (hs : s ≠ []) : pathComponents (s ++ ['/']) = pathComponents s := by
  have hsp : splitChar '/' (s ++ ['/']) = splitChar '/' s ++ [[]] := by
    rw [splitChar_two]
    rfl
  cases s with
  | nil => exact absurd rfl hs
  | cons x s =>
    by_cases hx : x = '/'
    · subst hx
      show PathComp.rootDir :: (splitChar '/' ('/' :: s ++ ['/'])).filterMap pieceComp = .rootDir :: _
      rw [hsp, List.filterMap_append]
      simp [pieceComp]
    · have key : ∀ t : Str, pathComponents (x :: t) = (match splitChar '/' (x :: t) with
          | first :: rest => (if first = ['.'] then [PathComp.curDir] else (pieceComp first).toList) ++ rest.filterMap pieceComp
          | [] => []) := by
        intro t
        unfold pathComponents
        split
        · next h => cases h
        · next h => cases h; exact absurd rfl hx
        · rfl
      rw [List.cons_append, key, key, ← List.cons_append, hsp]
      cases hc : splitChar '/' (x :: s) with
      | nil => exact absurd hc (splitChar_ne_nil _ _)
      | cons f r =>
        dsimp only [List.cons_append]
        rw [List.filterMap_append]
        simp [pieceComp]

theorem show_last {cs : List PathComp} (h : ∀ c ∈ cs, Plain c) : (showComps cs).getLast? ≠ some '/' := by
  rw [showComps_plain h]
  rcases List.eq_nil_or_concat cs with rfl | ⟨r, c, rfl⟩
  · simp [joinWith]
  · rw [List.concat_eq_append] at h ⊢
    obtain ⟨h1, h2, _⟩ := plain_text (h c (by simp))
    have hj : ∃ t, joinWith ['/'] ((r ++ [c]).map compText) = t ++ compText c := by
      clear h
      induction r with
      | nil => exact ⟨[], by simp [joinWith]⟩
      | cons x r ih =>
        obtain ⟨t, ht⟩ := ih
        cases r with
        | nil => exact ⟨compText x ++ ['/'], by simp [joinWith]⟩
        | cons y r =>
          refine ⟨compText x ++ '/' :: t, ?_⟩
          simp only [List.cons_append, List.map_cons, joinWith] at ht ⊢
          rw [ht]
          simp
    obtain ⟨t, ht⟩ := hj
    rw [ht, List.getLast?_append]
    intro hc
    cases hl : (compText c).getLast? with
    | none => exact h2 (List.getLast?_eq_none_iff.1 hl)
    | some x =>
      rw [hl] at hc
      simp at hc
      subst hc
      exact h1 (List.mem_of_mem_getLast? hl)

theorem suggestDir_plain {ws : List Str} (hws : ∀ n ∈ ws, ValidName n) (input : Str) :
    ∃ as, suggestDir ws input = .rootDir :: as ∧ ∀ c ∈ as, Plain c := by
  obtain ⟨r, h1, h2, _⟩ := joinComps_plain ws input
  have hr : ∀ c ∈ r, Plain c := by
    intro c hc
    rcases h2 c hc with ⟨n, hn, rfl⟩ | ⟨h, _⟩
    · exact .inr ⟨n, rfl, hws n hn⟩
    · exact h
  have hw : ∀ c ∈ ws.map PathComp.normal, Plain c := by
    intro c hc
    obtain ⟨n, hn, rfl⟩ := List.mem_map.1 hc
    exact .inr ⟨n, rfl, hws n hn⟩
  unfold suggestDir
  rw [h1]
  split
  · exact ⟨r, rfl, hr⟩
  · split
    · exact ⟨_, rfl, hw⟩
    · exact ⟨_, rfl, hw⟩
    · next c hne hl =>
      cases r with
      | nil => simp at hl; exact absurd hl.symm (by simpa using hne)
      | cons x r => exact ⟨(x :: r).dropLast, by simp, fun c hc => hr c (List.dropLast_subset _ hc)⟩

/-- C130: a suggestion begins with what was typed and leads from the workspace to something that exists, and it ends
with a slash exactly when that is a directory. -/
theorem C130_exists (d : FsTree) (hd : WellFormed d) (ws : List Str) (hws : ∀ n ∈ ws, ValidName n) (input s : Str)
    (h : s ∈ pathSuggestions d ws input) :
    input <+: s ∧ ∃ u, Has d (lexicalPlace ws (pathComponents s)) u ∧ ((∃ e, u = .dir e) ↔ s.getLast? = some '/') := by
  unfold pathSuggestions at h
  obtain ⟨as, h1, h2⟩ := suggestDir_plain hws input
  cases hl : d.resolve [] (suggestDir ws input) with
  | none => rw [hl] at h; cases h
  | some l =>
    rw [hl, Option.bind_some] at h
    split at h
    · next es hes =>
      obtain ⟨⟨n, t⟩, hm, hs⟩ := List.mem_filterMap.1 h
      have hwd := (lookup_valid hd hes).1
      obtain ⟨hnd, hvn, hwt⟩ : (es.map (·.1)).Nodup ∧ (∀ p ∈ es, ValidName p.1) ∧ ∀ p ∈ es, WellFormed p.2 := by
        cases hwd with
        | dir a b c => exact ⟨a, b, c⟩
      have hlook : d.lookup (l ++ [n]) = some t := by
        rw [lookup_append, hes, Option.bind_some]
        show (match mapGet es n with | some t => t.lookup [] | none => none) = _
        rw [(mapGet_some hnd).2 hm]
        rfl
      obtain ⟨rel, k1, k2, k3⟩ := diff_names (as ++ [.normal n]) ws
      have hplain : ∀ c ∈ rel, Plain c := by
        intro c hc
        rcases k3 c hc with rfl | hc
        · exact .inl rfl
        · rcases List.mem_append.1 hc with hc | hc
          · exact h2 c hc
          · rw [List.mem_singleton.1 hc]
            exact .inr ⟨n, rfl, hvn _ hm⟩
      have hplace : lexicalPlace ws rel = l ++ [n] := by
        have := k2 []
        rw [List.nil_append] at this
        rw [this, lexicalPlace_append]
        have hl' := resolve_lexical hl
        rw [h1] at hl'
        rw [hl']
        rfl
      unfold pathSuggestion at hs
      rw [h1, List.cons_append, diffComps, if_pos rfl, k1] at hs
      dsimp only at hs
      split at hs
      · next hpre =>
        cases hs
        have hpre := List.isPrefixOf_iff_prefix.1 hpre
        refine ⟨hpre, ?_⟩
        have hcomp : pathComponents (showComps rel) = rel := by rw [showComps_plain hplain, components_plain hplain]
        have hmain : Has d (lexicalPlace ws (pathComponents (showComps rel))) t := by
          rw [hcomp, hplace]
          exact (has_iff_lookup hd).2 hlook
        by_cases hdir : ∃ e, t = .dir e
        · obtain ⟨e, rfl⟩ := hdir
          rw [show slashAfter (.dir e) = ['/'] from rfl] at hpre ⊢
          by_cases hr : rel = []
          · subst hr
            refine ⟨d, .here d, ⟨fun _ => rfl, fun _ => ?_⟩⟩
            cases d with
            | dir e => exact ⟨e, rfl⟩
            | file x => cases l <;> cases hes
            | other => cases l <;> cases hes
          · have hne : showComps rel ≠ [] := by
              intro h0
              rw [h0] at hcomp
              exact hr hcomp.symm
            refine ⟨.dir e, by rw [components_slash hne]; exact hmain, ⟨fun _ => by simp, fun _ => ⟨e, rfl⟩⟩⟩
        · have hno : slashAfter t = [] := by
            cases t with
            | dir e => exact absurd ⟨e, rfl⟩ hdir
            | _ => rfl
          rw [hno, List.append_nil]
          exact ⟨t, hmain, ⟨fun h => absurd h hdir, fun h => absurd h (show_last hplain)⟩⟩
      · cases hs
    · cases h

/-- Directories and then the beginning of a name, as they are typed. -/
def Spec.typed (dirs : List Str) (q : Str) : Str := (dirs.flatMap fun n => n ++ ['/']) ++ q

theorem split_typed {dirs : List Str} {q : Str} (hv : ∀ n ∈ dirs, ValidName n) (hq : '/' ∉ q) :
    splitChar '/' (typed dirs q) = dirs ++ [q] := by
  induction dirs with
  | nil => exact splitChar_none hq
  | cons n dirs ih =>
    have : typed (n :: dirs) q = n ++ '/' :: typed dirs q := by simp [typed]
    rw [this, splitChar_append _ (hv n (by simp)).noSlash, ih fun m hm => hv m (by simp [hm])]
    rfl

theorem names_filter {dirs : List Str} (hv : ∀ n ∈ dirs, ValidName n) : dirs.filterMap pieceComp = dirs.map .normal := by
  induction dirs with
  | nil => rfl
  | cons n dirs ih =>
    rw [List.filterMap_cons, pieceComp_valid (hv n (by simp)), ih fun m hm => hv m (by simp [hm])]
    rfl

theorem joinComps_typed {ws dirs : List Str} {q : Str} (hv : ∀ n ∈ dirs, ValidName n) (hq : '/' ∉ q) (hdot : q ≠ ['.']) :
    joinComps ws (typed dirs q) = .rootDir :: (ws.map .normal ++ (dirs.map .normal ++ (pieceComp q).toList)) := by
  have hsp := split_typed hv hq
  have hfirst : ∀ f r, dirs ++ [q] = f :: r → f ≠ ['.'] := by
    intro f r h
    cases dirs with
    | nil => cases h; exact hdot
    | cons n dirs => cases h; exact (hv f (by simp)).notDot
  have hhead : (typed dirs q).head? ≠ some '/' := by
    cases dirs with
    | nil =>
      cases q with
      | nil => simp [typed]
      | cons x q => simp [typed] at hq ⊢; exact fun h => hq.1 h.symm
    | cons n dirs =>
      have h1 := (hv n (by simp)).noSlash
      have h2 := (hv n (by simp)).nonempty
      cases n with
      | nil => exact absurd rfl h2
      | cons x n => simp [typed] at h1 ⊢; exact fun h => h1.1 h.symm
  have hcomp : pathComponents (typed dirs q) = dirs.map .normal ++ (pieceComp q).toList := by
    have hall : (dirs ++ [q]).filterMap pieceComp = dirs.map .normal ++ (pieceComp q).toList := by
      rw [List.filterMap_append, names_filter hv]
      congr 1
    rw [← hall]
    unfold pathComponents
    split
    · next h =>
      rw [h] at hsp
      have : [([] : Str)] = dirs ++ [q] := hsp
      rw [← this]; rfl
    · next h => rw [h] at hhead; exact absurd rfl hhead
    · rw [hsp]
      cases hc : dirs ++ [q] with
      | nil => simp at hc
      | cons f r =>
        dsimp only
        rw [if_neg (hfirst f r hc), List.filterMap_cons]
        cases pieceComp f <;> rfl
  have hfil : (pathComponents (typed dirs q)).filter (fun c => decide (c ≠ PathComp.curDir)) = pathComponents (typed dirs q) := by
    rw [hcomp]
    refine List.filter_eq_self.2 fun c hc => ?_
    rcases List.mem_append.1 hc with hc | hc
    · obtain ⟨n, _, rfl⟩ := List.mem_map.1 hc
      rfl
    · rw [Option.mem_toList] at hc
      have : Plain c := plain_or_dot (s := q) (List.mem_filterMap.2 ⟨q, by rw [splitChar_none hq]; simp, hc⟩)
      rcases this with rfl | ⟨n, rfl, _⟩ <;> rfl
  have : joinComps ws (typed dirs q) = .rootDir :: (ws.map .normal ++ (pathComponents (typed dirs q)).filter fun c => decide (c ≠ .curDir)) := by
    unfold joinComps
    split
    · next h => rw [h] at hhead; exact absurd rfl hhead
    · rfl
  rw [this, hfil, hcomp]

/-- C130: everything in a directory below the workspace is suggested as soon as the directory and a beginning of its
name have been typed. Missing: a single dot as the beginning (`C130_hidden`). -/
theorem C130_offered_partial (d : FsTree) (hd : WellFormed d) (ws : List Str) (dirs : List Str) (n : Str) (u : FsTree) (hu : Has d (ws ++ dirs ++ [n]) u) (q : Str) (hq : q <+: n) (hdot : q ≠ ['.']) :
    joinWith ['/'] (dirs ++ [n]) ++ slashAfter u ∈ pathSuggestions d ws (typed dirs q) := by
  have hl := (has_iff_lookup hd).1 hu
  obtain ⟨es, h1, h2⟩ := lookup_snoc_some hl
  have hval := (lookup_valid hd hl).2
  have hv : ∀ m ∈ dirs, ValidName m := fun m hm => hval m (by simp [hm])
  have hvn : ValidName n := hval n (by simp)
  have hslash : '/' ∉ q := fun h => hvn.noSlash (hq.subset h)
  have hj := joinComps_typed (ws := ws) hv hslash hdot
  have hsd : suggestDir ws (typed dirs q) = .rootDir :: (ws ++ dirs).map .normal := by
    unfold suggestDir
    by_cases hq0 : q = []
    · subst hq0
      rw [if_pos, hj]
      · simp [pieceComp]
      · rcases List.eq_nil_or_concat dirs with rfl | ⟨r, m, rfl⟩
        · exact .inl rfl
        · right
          simp [typed]
    · have hlast : ∀ c, (typed dirs q).getLast? = some c → c ≠ '/' := by
        rintro c hc rfl
        unfold typed at hc
        rw [List.getLast?_append] at hc
        cases hql : q.getLast? with
        | none => exact hq0 (List.getLast?_eq_none_iff.1 hql)
        | some x =>
          rw [hql] at hc
          simp at hc
          subst hc
          exact hslash (List.mem_of_mem_getLast? hql)
      rw [if_neg, hj]
      · have hp : ∃ c, pieceComp q = some c ∧ c ≠ .rootDir := by
          by_cases h2 : q = ['.', '.']
          · exact ⟨.parentDir, by rw [h2]; rfl, by simp⟩
          · exact ⟨.normal q, by unfold pieceComp; rw [if_neg hq0, if_neg hdot, if_neg h2], by simp⟩
        obtain ⟨c, hc, hne⟩ := hp
        rw [hc]
        have e : PathComp.rootDir :: (ws.map .normal ++ (dirs.map .normal ++ (some c).toList)) =
            (PathComp.rootDir :: (ws ++ dirs).map .normal) ++ [c] := by simp
        rw [e, List.getLast?_concat]
        split
        · next h => cases h
        · next h => cases h; exact absurd rfl hne
        · rw [List.dropLast_concat]
      · rintro (h | h)
        · unfold typed at h
          exact hq0 (List.append_eq_nil_iff.1 h).2
        · exact hlast _ h rfl
  unfold pathSuggestions
  have hres : d.resolve [] (suggestDir ws (typed dirs q)) = some (ws ++ dirs) := by
    rw [hsd]
    show d.resolve [] ((ws ++ dirs).map .normal) = _
    exact resolve_normal (loc := []) (by rw [List.nil_append]; exact h1)
  rw [hres, Option.bind_some, h1]
  dsimp only
  refine List.mem_filterMap.2 ⟨(n, u), ?_, ?_⟩
  · cases (lookup_valid hd h1).1 with
    | dir hnd _ _ => exact (mapGet_some hnd).1 h2
  unfold pathSuggestion
  have hrel : diffComps (suggestDir ws (typed dirs q) ++ [.normal n]) (.rootDir :: ws.map .normal) =
      some ((dirs ++ [n]).map .normal) := by
    rw [hsd, List.cons_append, diffComps, if_pos rfl, List.map_append, List.append_assoc]
    have := diff_common ws (dirs.map .normal ++ [.normal n]) []
    rw [List.append_nil] at this
    rw [this]
    simp only [List.map_append, List.map_cons, List.map_nil]
    cases dirs <;> rfl
  have hplain : ∀ c ∈ (dirs ++ [n]).map PathComp.normal, Plain c := by
    intro c hc
    obtain ⟨m, hm, rfl⟩ := List.mem_map.1 hc
    exact .inr ⟨m, rfl, hval m (by
      rcases List.mem_append.1 hm with h | h
      · simp [h]
      · rw [List.mem_singleton.1 h]; simp)⟩
  have hshow : showComps ((dirs ++ [n]).map .normal) = joinWith ['/'] (dirs ++ [n]) := by
    rw [showComps_plain hplain, List.map_map]
    congr 1
    exact List.map_id _
  have hjoin : joinWith ['/'] (dirs ++ [n]) = typed dirs n := by
    have := joinWith_splitChar '/' (typed dirs n)
    rw [split_typed hv hvn.noSlash] at this
    exact this
  rw [hrel]
  dsimp only
  rw [hshow, if_pos]
  rw [List.isPrefixOf_iff_prefix, hjoin]
  obtain ⟨t, rfl⟩ := hq
  exact ⟨t ++ slashAfter u, by simp [typed]⟩

/-- C130 is false of a single dot: `.env` is suggested at first, but no longer once its dot has been typed. -/
theorem C130_hidden : ∃ d : FsTree, WellFormed d ∧ Has d ["w".toList, ".env".toList] (.file (some [])) ∧
    pathSuggestions d ["w".toList] [] = [".env".toList] ∧ pathSuggestions d ["w".toList] ".".toList = [] := by
  refine ⟨.dir (some [("w".toList, .dir (some [(".env".toList, .file (some []))]))]), ?_, ?_, by decide +kernel, by decide +kernel⟩
  · refine .dir (by decide) ?_ ?_
    · intro p hp; rw [List.mem_singleton.1 hp]; exact ⟨by decide, by decide, by decide, by decide⟩
    · intro p hp
      rw [List.mem_singleton.1 hp]
      refine .dir (by decide) ?_ ?_
      · intro p hp; rw [List.mem_singleton.1 hp]; exact ⟨by decide, by decide, by decide, by decide⟩
      · intro p hp; rw [List.mem_singleton.1 hp]; exact .file _
  · exact .inside (t := .dir (some [(".env".toList, .file (some []))])) (List.mem_singleton.2 rfl)
      (.inside (t := .file (some [])) (List.mem_singleton.2 rfl) (.here _))

/-- C130: a suggestion that is chosen is stored as a path which the next build reads as one that leads to the same
place. Missing as in C104: quotation marks, paths that end with `path` and target files with `..` in their names. -/
theorem C130_stored_partial (L : Lang) (d : FsTree) (hd : WellFormed d) (ws : List Str) (hws : ∀ n ∈ ws, ValidName n)
    {dirs : List Str} {name : Str} (hv : ∀ n ∈ dirs ++ [name], ValidName n) (input s : Str)
    (h : s ∈ pathSuggestions d ws input)
    (hl : Legible L (.path (promptedPath ws (.rootDir :: (ws ++ dirs ++ [name]).map .normal) s))) :
    ∃ v p u, pathPrompt ws (.rootDir :: (ws ++ dirs ++ [name]).map .normal) false [.text s] = some (some v, []) ∧
      ReadsAs L .default (joinWith ['/'] (dirs ++ [name])) v (.path p) ∧ Has d (lexicalPlace ws (pathComponents p)) u := by
  obtain ⟨p, h1, _, h2⟩ := C104_path_partial L ws hv s hl
  obtain ⟨_, u, h3, _⟩ := C130_exists d hd ws hws input s h
  exact ⟨_, p, u, rfl, h1, h2 ▸ h3⟩

/-- A disk for the examples: a workspace with notes, and a picture beside it. -/
def exNotesDisk : FsTree :=
  .dir (some [("w".toList, .dir (some [("notes".toList, .dir (some [("plan.md".toList, .file (some [])), ("pay".toList, .dir none)])),
    ("main.firm".toList, .file (some []))])), ("logo.png".toList, .file none)])

theorem exNotes_wf : WellFormed exNotesDisk := by
  have hn : ∀ n ∈ ["w".toList, "notes".toList, "plan.md".toList, "pay".toList, "main.firm".toList, "logo.png".toList], ValidName n := by
    intro n hn
    simp only [List.mem_cons, List.not_mem_nil, or_false] at hn
    rcases hn with rfl | rfl | rfl | rfl | rfl | rfl <;> exact ⟨by decide, by decide, by decide, by decide⟩
  refine .dir (by decide) ?_ ?_ <;> intro p hp <;> simp only [List.mem_cons, List.not_mem_nil, or_false] at hp
  · rcases hp with rfl | rfl <;> exact hn _ (by decide)
  · rcases hp with rfl | rfl
    · refine .dir (by decide) ?_ ?_ <;> intro p hp <;> simp only [List.mem_cons, List.not_mem_nil, or_false] at hp
      · rcases hp with rfl | rfl <;> exact hn _ (by decide)
      · rcases hp with rfl | rfl
        · refine .dir (by decide) ?_ ?_ <;> intro p hp <;> simp only [List.mem_cons, List.not_mem_nil, or_false] at hp
          · rcases hp with rfl | rfl <;> exact hn _ (by decide)
          · rcases hp with rfl | rfl
            · exact .file _
            · exact .unreadable
        · exact .file _
    · exact .file _

/-- Suggestions below the workspace, in it and beside it. -/
example : WellFormed exNotesDisk ∧
    pathSuggestions exNotesDisk ["w".toList] "notes/p".toList = ["notes/plan.md".toList, "notes/pay/".toList] ∧
    pathSuggestions exNotesDisk ["w".toList] [] = ["notes/".toList, "main.firm".toList] ∧
    pathSuggestions exNotesDisk ["w".toList] "../".toList = ["../w/".toList, "../logo.png".toList] :=
  ⟨exNotes_wf, by decide +kernel, by decide +kernel, by decide +kernel⟩

/-- The hypotheses of `C130_offered_partial`: a file below the workspace and a beginning of its name. -/
example : Has exNotesDisk (["w".toList] ++ ["notes".toList] ++ ["plan.md".toList]) (.file (some [])) ∧
    "pl".toList <+: "plan.md".toList ∧ typed ["notes".toList] "pl".toList = "notes/pl".toList ∧ "pl".toList ≠ ['.'] :=
  ⟨(has_iff_lookup exNotes_wf).2 (by rfl), by decide, by decide, by decide⟩

/-- The hypotheses of `C130_stored_partial`: the chosen plan, entered for a file in a directory of the workspace. -/
example : (∀ n ∈ ["core".toList] ++ ["main.firm".toList], ValidName n) ∧
    "notes/plan.md".toList ∈ pathSuggestions exNotesDisk ["w".toList] "notes/pl".toList ∧
    promptedPath ["w".toList] (.rootDir :: (["w".toList] ++ ["core".toList] ++ ["main.firm".toList]).map .normal)
      "notes/plan.md".toList = "../notes/plan.md".toList ∧
    Legible exLang (.path "../notes/plan.md".toList) := by
  refine ⟨?_, by decide +kernel, by decide +kernel, .path (by decide) ?_⟩
  · intro n hn
    simp only [List.cons_append, List.nil_append, List.mem_cons, List.not_mem_nil, or_false] at hn
    rcases hn with rfl | rfl <;> exact ⟨by decide, by decide, by decide, by decide⟩
  · intro x h
    have := congrArg List.getLast? h
    rw [List.getLast?_append, show "path".toList.getLast? = some 'h' from rfl,
      show "../notes/plan.md".toList.getLast? = some 'd' from rfl] at this
    exact absurd (Option.some.inj this) (by decide)

end Firm
