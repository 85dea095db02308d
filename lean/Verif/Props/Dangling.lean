import Verif.Props.Served
import Verif.Props.Tools

/-! # References to nothing are not refused (C143) -/

namespace Firm
open Spec

/-! ## What the request looks at -/

/-- Some entity in another file is of a type whose schema is defined in the file at `loc`. -/
def Spec.Orphans (H : Host) (d : FsTree) (loc : List Str) : Prop :=
  ∃ (text : Str) (n : Node) (sc : EntitySchema) (loc' : List Str) (text' : Str) (n' : Node) (e : Entity),
    FirmFile d H.ws loc text ∧ n ∈ (H.grammar text).children ∧ n.kind = "schema_block".toList ∧
      toSchema H.lang (joinWith ['/'] loc) n = .ok sc ∧
    FirmFile d H.ws loc' text' ∧ loc' ≠ loc ∧ n' ∈ (H.grammar text').children ∧ n'.kind = "entity_block".toList ∧
      toEntity H.lang (joinWith ['/'] loc') n' = .ok e ∧ e.entityType = sc.entityType

theorem mem_blocksOf {kind : String} {w : Workspace} {x : Str × Node} :
    x ∈ blocksOf kind w ↔ ∃ p ∈ w, p.2.rel = x.1 ∧ x.2 ∈ p.2.root.children ∧ x.2.kind = kind.toList := by
  unfold blocksOf
  rw [List.mem_flatMap]
  refine exists_congr fun p => and_congr_right fun _ => ?_
  obtain ⟨r, n⟩ := x
  simp only [List.mem_map, List.mem_filter, decide_eq_true_eq, Prod.mk.injEq]
  constructor
  · rintro ⟨c, ⟨h1, h2⟩, h3, rfl⟩; exact ⟨h3, h1, h2⟩
  · rintro ⟨h1, h2, h3⟩; exact ⟨n, ⟨h2, h3⟩, h1, rfl⟩

theorem forall2_split {α β : Type} {R : α → β → Prop} : ∀ {as bs : List α} {cs : List β}, List.Forall₂ R (as ++ bs) cs →
    ∃ xs ys, cs = xs ++ ys ∧ List.Forall₂ R as xs ∧ List.Forall₂ R bs ys
  | [], _, cs, h => ⟨[], cs, rfl, .nil, h⟩
  | _ :: _, _, _, .cons h hs => by
    obtain ⟨xs, ys, rfl, h1, h2⟩ := forall2_split hs
    exact ⟨_ :: xs, ys, rfl, .cons h h1, h2⟩

/-- The files without one of them build exactly when no entity of the others has its schema there; the entities
are then some of those that were there before. -/
theorem shrink_builds {L : Lang} {w w' : Workspace} {b : WorkspaceBuild} {p : Str × SourceFile}
    (hb : w.build L = .ok b) (hp : w.Perm (p :: w')) :
    ((∃ b', w'.build L = .ok b') ↔ ¬ ∃ x y sc e, x ∈ blocksOf "schema_block" [p] ∧ toSchema L x.1 x.2 = .ok sc ∧
      y ∈ blocksOf "entity_block" w' ∧ toEntity L y.1 y.2 = .ok e ∧ e.entityType = sc.entityType) ∧
    ∀ b', w'.build L = .ok b' → ∃ es, b.entities.Perm (es ++ b'.entities) := by
  have hv := (C41_build L w b.entities b.schemas).1 hb
  have hbl : ∀ kind, (blocksOf kind w).Perm (blocksOf kind [p] ++ blocksOf kind w') := fun kind => by
    unfold blocksOf
    rw [← List.flatMap_append]
    exact List.Perm.flatMap_right _ hp
  obtain ⟨es, h1, h2⟩ := forall₂_perm (f := fun b : Str × Node => toEntity L b.1 b.2) (hbl _) hv.entities
  obtain ⟨ss, h3, h4⟩ := forall₂_perm (f := fun b : Str × Node => toSchema L b.1 b.2) (hbl _) hv.schemas
  obtain ⟨ea, eb, rfl, h5, h6⟩ := forall2_split h1
  obtain ⟨sa, sb, rfl, h7, h8⟩ := forall2_split h3
  have hn := (h4.map EntitySchema.entityType).nodup_iff.1 hv.oneSchema
  rw [List.map_append, List.nodup_append] at hn
  refine ⟨⟨?_, ?_⟩, ?_⟩
  · rintro ⟨b', hb'⟩ ⟨x, y, sc, e, hx, hsc, hy, he, hty⟩
    have hv' := (C41_build L w' b'.entities b'.schemas).1 hb'
    obtain ⟨sc', hsc', h⟩ := forall2_right h7 x hx
    rw [hsc] at h
    cases h
    obtain ⟨e', he', h⟩ := forall2_right hv'.entities y hy
    rw [he] at h
    cases h
    obtain ⟨s, hs, hst, _⟩ := hv'.checked e he'
    rw [forall2_fun hv'.schemas h8] at hs
    exact hn.2.2 _ (List.mem_map.2 ⟨sc, hsc', rfl⟩) _ (List.mem_map.2 ⟨s, hs, rfl⟩) (by rw [hst, hty])
  · intro hno
    refine ⟨⟨eb, sb⟩, (C41_build L w' eb sb).2 ⟨h8, h6, hn.2.1, ?_⟩⟩
    intro e he
    obtain ⟨s, hs, hst, hc⟩ := hv.checked e (h2.mem_iff.2 (List.mem_append_right _ he))
    rcases List.mem_append.1 (h4.mem_iff.1 hs) with hs | hs
    · obtain ⟨x, hx, hxs⟩ := forall2_left h7 s hs
      obtain ⟨y, hy, hye⟩ := forall2_left h6 e he
      exact absurd ⟨x, y, s, e, hx, hxs, hy, hye, hst.symm⟩ hno
    · exact ⟨s, hs, hst, hc⟩
  · intro b' hb'
    have hv' := (C41_build L w' b'.entities b'.schemas).1 hb'
    rw [forall2_fun hv'.entities h6]
    exact ⟨ea, h2⟩

/-! ## Deleting a file -/

/-- A source file can be taken away; the rest stays. -/
theorem deleteExecute_file {d : FsTree} {ws loc : List Str} {text : Str} (hd : WellFormed d)
    (hf : FirmFile d ws loc text) :
    deleteExecute d ws (joinWith ['/'] loc) = some (d.remove (ws ++ loc), text) ∧ WellFormed (d.remove (ws ++ loc)) ∧
      (∀ l u, NotDir u → (Has (d.remove (ws ++ loc)) l u ↔ l ≠ ws ++ loc ∧ Has d l u)) ∧
      ∃ es, Has (d.remove (ws ++ loc)) ws (.dir (some es)) := by
  obtain ⟨v1, v2, v3⟩ := valid_of_firmFile hd hf
  obtain ⟨⟨dirs, n, rfl, stem, hstem, rfl⟩, hh⟩ := hf
  have hlk : d.lookup (ws ++ (dirs ++ [stem ++ ".firm".toList])) = some (.file (some text)) := (has_iff_lookup hd).1 hh
  have habs : toAbsolutePath d ws (joinWith ['/'] (dirs ++ [stem ++ ".firm".toList])) =
      some (ws ++ (dirs ++ [stem ++ ".firm".toList])) := by
    unfold toAbsolutePath
    rw [pathComponents_relative v3 v2, resolve_normal hlk]
    dsimp only
    rw [hlk]
    dsimp only
    rw [if_pos (List.isPrefixOf_iff_prefix.2 (List.prefix_append _ _))]
  have hend : endsWith (joinWith ['/'] (dirs ++ [stem ++ ".firm".toList])) ".firm".toList = true := by
    refine (endsWith_iff _ _).2 ?_
    have : ∀ ds : List Str, ∃ pre, joinWith ['/'] (ds ++ [stem ++ ".firm".toList]) = pre ++ ".firm".toList := by
      intro ds
      induction ds with
      | nil => exact ⟨stem, rfl⟩
      | cons a ds ih =>
        obtain ⟨pre, h⟩ := ih
        cases ds with
        | nil => exact ⟨a ++ ['/'] ++ stem, by simp [joinWith]⟩
        | cons b ds =>
          refine ⟨a ++ ['/'] ++ pre, ?_⟩
          rw [List.cons_append, List.cons_append, joinWith, ← List.cons_append, h]
          simp
    exact this dirs
  have hwf : WellFormed (d.remove (ws ++ (dirs ++ [stem ++ ".firm".toList]))) := wf_remove hd
  refine ⟨?_, hwf, ?_, ?_⟩
  · unfold deleteExecute
    rw [if_pos hend, habs]
    dsimp only
    unfold FsTree.readText FsTree.removeFile
    rw [hlk]
    rfl
  · intro l u hu
    rw [← List.append_assoc] at hlk ⊢
    have := leafAt_remove hlk (fun es h => by cases h) l
    have h1 : Has (d.remove (ws ++ dirs ++ [stem ++ ".firm".toList])) l u ↔
        leafAt (d.remove (ws ++ dirs ++ [stem ++ ".firm".toList])) l = some u := by
      rw [has_iff_lookup (by rw [List.append_assoc]; exact hwf), leafAt_eq_some]
      exact (and_iff_left hu).symm
    have h2 : Has d l u ↔ leafAt d l = some u := by
      rw [has_iff_lookup hd, leafAt_eq_some]
      exact (and_iff_left hu).symm
    rw [h1, h2, this]
    by_cases hl : l = ws ++ dirs ++ [stem ++ ".firm".toList]
    · rw [if_pos hl]
      exact ⟨(fun h => by cases h), fun h => absurd hl h.1⟩
    · rw [if_neg hl]
      exact ⟨fun h => ⟨hl, h⟩, fun h => h.2⟩
  · obtain ⟨es, hes⟩ := has_parent (a := ws ++ dirs) (b := [stem ++ ".firm".toList]) (by rw [List.append_assoc]; exact hh)
      (by simp)
    obtain ⟨es', h, _⟩ := lookup_remove_parent (n := stem ++ ".firm".toList) ((has_iff_lookup hd).1 hes)
    rw [List.append_assoc] at h
    have h := (has_iff_lookup hwf).2 h
    cases dirs with
    | nil => rw [List.append_nil] at h; exact ⟨_, h⟩
    | cons a dirs => exact has_parent h (by simp)

/-- The files that are loaded after one was taken away. -/
theorem loads_without {grammar : Str → Node} {ws loc : List Str} {d d' : FsTree} {text : Str} (hd : WellFormed d)
    {w w' : Workspace} (hw : LoadsAs grammar ws d w) (hw' : LoadsAs grammar ws d' w') (hf : FirmFile d ws loc text)
    (hrest : ∀ l u, NotDir u → (Has d' l u ↔ l ≠ ws ++ loc ∧ Has d l u)) :
    w.Perm ((placeText (ws ++ loc), ⟨grammar text, joinWith ['/'] loc⟩) :: w') := by
  have hnd : ∀ t : Option Str, NotDir (.file t) := fun t es h => by cases h
  obtain ⟨v1, v2, _⟩ := valid_of_firmFile hd hf
  have hnot : placeText (ws ++ loc) ∉ w'.map (·.1) := by
    intro h
    obtain ⟨⟨path, f⟩, hm, he⟩ := List.mem_map.1 h
    obtain ⟨loc', text', ⟨_, h2⟩, h3, _⟩ := (hw'.2 path f).1 hm
    obtain ⟨h4, h5⟩ := (hrest _ _ (hnd _)).1 h2
    refine h4 (placeText_inj (lookup_valid hd ((has_iff_lookup hd).1 h5)).2 (lookup_valid hd ((has_iff_lookup hd).1 hf.2)).2 ?_)
    exact h3.symm.trans he
  refine (List.perm_ext_iff_of_nodup (.of_map _ hw.1) (List.nodup_cons.2 ⟨fun h => hnot (List.mem_map.2 ⟨_, h, rfl⟩), .of_map _ hw'.1⟩)).2 ?_
  rintro ⟨path, f⟩
  rw [List.mem_cons, hw.2 path f, hw'.2 path f]
  constructor
  · rintro ⟨loc', text', ⟨h1, h2⟩, h3, h4⟩
    by_cases hl : loc' = loc
    · subst hl
      cases has_file_unique hd h2 hf.2
      exact .inl (by rw [h3, h4]; rfl)
    · exact .inr ⟨loc', text', ⟨h1, (hrest _ _ (hnd _)).2 ⟨by simpa using hl, h2⟩⟩, h3, h4⟩
  · rintro (h | ⟨loc', text', ⟨h1, h2⟩, h3, h4⟩)
    · cases h
      exact ⟨loc, text, hf, rfl, rfl⟩
    · exact ⟨loc', text', ⟨h1, ((hrest _ _ (hnd _)).1 h2).2⟩, h3, h4⟩

/-- C143: `delete_source` refuses to delete a source file exactly when an entity in another file is of a type whose
schema is defined in it; otherwise the file is gone and all else stays. Whether other files refer to entities in the
file is not looked at. Missing: the refusal of deletions after which a reference leads to nothing, which is false
(`C143_deleted`). -/
theorem C143_delete_partial (H : Host) (hws : ∀ n ∈ H.ws, ValidName n) (order : Workspace → Workspace)
    (ho : ∀ w, (order w).Perm w) (s : Server) (hd : WellFormed s.disk) (hs : Serves H s) (hread : Readable H.ws s.disk)
    {loc : List Str} {text : Str} (hf : FirmFile s.disk H.ws loc text) :
    ((deleteSource H order s (joinWith ['/'] loc) false).2 = .error ↔ Orphans H s.disk loc) ∧
    (¬ Orphans H s.disk loc → (deleteSource H order s (joinWith ['/'] loc) false).2 = .success ∧
      ∀ l u, NotDir u → (Has (deleteSource H order s (joinWith ['/'] loc) false).1.disk l u ↔
        l ≠ H.ws ++ loc ∧ Has s.disk l u)) := by
  obtain ⟨h1, h2, h3, h4⟩ := deleteExecute_file hd hf
  have hnd : ∀ t : Option Str, NotDir (.file t) := fun t es h => by cases h
  have horph : ∀ w', LoadsAs H.grammar H.ws (s.disk.remove (H.ws ++ loc)) w' →
      ((∃ x y sc e, x ∈ blocksOf "schema_block" [(placeText (H.ws ++ loc), (⟨H.grammar text, joinWith ['/'] loc⟩ : SourceFile))] ∧
        toSchema H.lang x.1 x.2 = .ok sc ∧ y ∈ blocksOf "entity_block" w' ∧ toEntity H.lang y.1 y.2 = .ok e ∧
        e.entityType = sc.entityType) ↔ Orphans H s.disk loc) := by
    intro w' hw'
    constructor
    · rintro ⟨⟨r, n⟩, ⟨r', n'⟩, sc, e, hx, hsc, hy, he, hty⟩
      obtain ⟨p, hp, rfl, hn, hk⟩ := mem_blocksOf.1 hx
      rw [List.mem_singleton.1 hp] at hn hsc
      obtain ⟨⟨path, f⟩, hp', rfl, hn', hk'⟩ := mem_blocksOf.1 hy
      obtain ⟨loc', text', ⟨g1, g2⟩, g3, rfl⟩ := (hw'.2 path f).1 hp'
      obtain ⟨g4, g5⟩ := (h3 _ _ (hnd _)).1 g2
      exact ⟨text, n, sc, loc', text', n', e, hf, hn, hk, hsc, ⟨g1, g5⟩, by rintro rfl; exact g4 rfl, hn', hk', he, hty⟩
    · rintro ⟨text1, n, sc, loc', text', n', e, hf1, hn, hk, hsc, hf', hne, hn', hk', he, hty⟩
      cases has_file_unique hd hf1.2 hf.2
      refine ⟨(joinWith ['/'] loc, n), (joinWith ['/'] loc', n'), sc, e,
        mem_blocksOf.2 ⟨_, List.mem_singleton.2 rfl, rfl, hn, hk⟩, hsc, mem_blocksOf.2 ⟨_, (hw'.2 _ _).2
          ⟨loc', text', ⟨hf'.1, (h3 _ _ (hnd _)).2 ⟨by simpa using hne, hf'.2⟩⟩, rfl, rfl⟩, rfl, hn', hk'⟩, he, hty⟩
  have hok : ¬ Orphans H s.disk loc → ∃ st, rebuild H order (s.disk.remove (H.ws ++ loc)) = .ok st := by
    intro hno
    refine rebuild_ok h2 hws ho ⟨h4, ?_, ?_⟩ ?_
    · intro l hl
      exact hread.2.1 l ((h3 _ _ (fun es h => by cases h)).1 hl).2
    · intro dirs n hn hl
      exact hread.2.2 dirs n hn ((h3 _ _ (hnd _)).1 hl).2
    · intro w' hw'
      obtain ⟨k1, k2⟩ := shrink_builds hs.2.1 (loads_without hd hs.1 hw' hf h3)
      obtain ⟨b', hb'⟩ := k1.2 (fun h => hno ((horph w' hw').1 h))
      obtain ⟨es, hes⟩ := k2 b' hb'
      refine ⟨b', hb', ?_⟩
      have := ((hes.map Entity.id).nodup_iff.1 (toGraph_run hs.2.2).2.2.2)
      rw [List.map_append, List.nodup_append] at this
      exact this.2.1
  have hbad : Orphans H s.disk loc → ∀ st, rebuild H order (s.disk.remove (H.ws ++ loc)) ≠ .ok st := by
    intro ho' st hst
    have hsv := rebuild_serves h2 hws ho hst
    obtain ⟨k1, _⟩ := shrink_builds hs.2.1 (loads_without hd hs.1 hsv.1 hf h3)
    exact k1.1 ⟨_, hsv.2.1⟩ ((horph _ hsv.1).2 ho')
  have hno : ¬ Orphans H s.disk loc → (deleteSource H order s (joinWith ['/'] loc) false).2 = .success ∧
      ∀ l u, NotDir u → (Has (deleteSource H order s (joinWith ['/'] loc) false).1.disk l u ↔
        l ≠ H.ws ++ loc ∧ Has s.disk l u) := by
    intro hno
    obtain ⟨st, hst⟩ := hok hno
    unfold deleteSource
    rw [h1]
    dsimp only
    rw [hst]
    exact ⟨rfl, h3⟩
  refine ⟨⟨?_, ?_⟩, hno⟩
  · intro he
    by_contra hn
    rw [(hno hn).1] at he
    cases he
  · intro h
    unfold deleteSource
    rw [h1]
    dsimp only
    cases hst : rebuild H order (s.disk.remove (H.ws ++ loc)) with
    | ok st => exact absurd hst (hbad h st)
    | error e => rfl

/-- C143: a file that defines no schema can always be deleted, whatever refers to what is in it. -/
theorem C143_entities (H : Host) (hws : ∀ n ∈ H.ws, ValidName n) (order : Workspace → Workspace)
    (ho : ∀ w, (order w).Perm w) (s : Server) (hd : WellFormed s.disk) (hs : Serves H s) (hread : Readable H.ws s.disk)
    {loc : List Str} {text : Str} (hf : FirmFile s.disk H.ws loc text)
    (hno : ∀ n ∈ (H.grammar text).children, n.kind ≠ "schema_block".toList) :
    (deleteSource H order s (joinWith ['/'] loc) false).2 = .success := by
  refine ((C143_delete_partial H hws order ho s hd hs hread hf).2 ?_).1
  rintro ⟨text1, n, sc, loc', text', n', e, hf1, hn, hk, -⟩
  cases has_file_unique hd hf1.2 hf.2
  exact hno n hn hk

/-! ## Targets of references do not matter -/

/-- The same but for the id, where references lead to and what is in lists. -/
def Spec.SameButTargets (e e' : Entity) : Prop :=
  e'.entityType = e.entityType ∧ List.Forall₂ (fun p q : FieldId × FieldValue => q.1 = p.1 ∧
    (q.2 = p.2 ∨ (∃ r r', p.2 = .reference r ∧ q.2 = .reference r') ∨ ∃ l l', p.2 = .list l ∧ q.2 = .list l')) e.fields e'.fields

theorem sameButTargets_value {fs fs' : List (FieldId × FieldValue)}
    (h : List.Forall₂ (fun p q : FieldId × FieldValue => q.1 = p.1 ∧
      (q.2 = p.2 ∨ (∃ r r', p.2 = .reference r ∧ q.2 = .reference r') ∨ ∃ l l', p.2 = .list l ∧ q.2 = .list l')) fs fs')
    (f : FieldId) :
    (∀ v', FirstValue fs' f v' → ∃ v, FirstValue fs f v ∧ v'.getType = v.getType ∧ ∀ x, v' = .enum x → v = .enum x) ∧
    (∀ v, FirstValue fs f v → ∃ v', FirstValue fs' f v') := by
  induction h with
  | nil => exact ⟨(fun v' h => by cases h), (fun v h => by cases h)⟩
  | @cons p q fs fs' hpq _ ih =>
    obtain ⟨k, v⟩ := p
    obtain ⟨k', v'⟩ := q
    obtain ⟨hk, hv⟩ := hpq
    dsimp only at hk hv
    subst hk
    constructor
    · intro u hu
      cases hu with
      | here =>
        refine ⟨v, .here _ _ _, ?_⟩
        rcases hv with rfl | ⟨r, r', rfl, rfl⟩ | ⟨l, l', rfl, rfl⟩
        · exact ⟨rfl, fun x h => h⟩
        · exact ⟨rfl, fun x h => by cases h⟩
        · exact ⟨rfl, fun x h => by cases h⟩
      | there _ _ _ _ _ hne hu =>
        obtain ⟨w, h1, h2⟩ := ih.1 u hu
        exact ⟨w, .there _ _ _ _ _ hne h1, h2⟩
    · intro u hu
      cases hu with
      | here => exact ⟨v', .here _ _ _⟩
      | there _ _ _ _ _ hne hu =>
        obtain ⟨w, h1⟩ := ih.2 u hu
        exact ⟨w, .there _ _ _ _ _ hne h1⟩

theorem conforms_targets {env : Env} {s : EntitySchema} {e e' : Entity} (h : SameButTargets e e')
    (hc : Conforms env s e) : Conforms env s e' := by
  refine ⟨h.1.trans hc.1, fun f fs hm => ?_⟩
  obtain ⟨h1, h2⟩ := hc.2 f fs hm
  obtain ⟨h3, h4⟩ := sameButTargets_value h.2 f
  constructor
  · intro v' hv'
    obtain ⟨v, hv, ht, he⟩ := h3 v' hv'
    obtain ⟨g1, g2⟩ := h1 v hv
    exact ⟨ht.trans g1, fun x hx => g2 x (he x hx)⟩
  · intro hm
    obtain ⟨v, hv⟩ := h2 hm
    exact h4 v hv

/-- C143: where references lead to has no influence on whether the files build: if files build, then so do all
files with the same schemas and the same entities but for the targets of references, alone or in lists. -/
theorem C143_blind (L : Lang) (w w' : Workspace) (b : WorkspaceBuild) (hb : w.build L = .ok b)
    (hs : List.Forall₂ (fun x sc => toSchema L x.1 x.2 = .ok sc) (blocksOf "schema_block" w') b.schemas) {es' : List Entity}
    (he : List.Forall₂ (fun x e => toEntity L x.1 x.2 = .ok e) (blocksOf "entity_block" w') es')
    (h : List.Forall₂ SameButTargets b.entities es') : w'.build L = .ok ⟨es', b.schemas⟩ := by
  have hv := (C41_build L w b.entities b.schemas).1 hb
  refine (C41_build L w' es' b.schemas).2 ⟨hs, he, hv.oneSchema, fun e' he' => ?_⟩
  obtain ⟨e, hm, hsame⟩ := forall2_left h e' he'
  obtain ⟨s, h1, h2, h3⟩ := hv.checked e hm
  exact ⟨s, h1, by rw [h2, hsame.1], conforms_targets hsame h3⟩

/-! ## Dangling references are accepted -/

/-- Some field holds a reference to an entity that is not there. -/
def Spec.Dangles (b : WorkspaceBuild) : Prop :=
  ∃ e ∈ b.entities, ∃ f id, ((f, FieldValue.reference (.entity id)) ∈ e.fields ∨
    ∃ g, (f, FieldValue.reference (.field id g)) ∈ e.fields) ∧ ∀ x ∈ b.entities, x.id ≠ id

/-- `Dangles`, computed. -/
def danglesB (b : WorkspaceBuild) : Bool :=
  b.entities.any fun e => e.fields.any fun p => match p.2 with
    | .reference (.entity id) => !(b.entities.any fun x => x.id = id)
    | .reference (.field id _) => !(b.entities.any fun x => x.id = id)
    | _ => false

theorem danglesB_iff {b : WorkspaceBuild} : danglesB b = true ↔ Dangles b := by
  have hno : ∀ id, (!(b.entities.any fun x => x.id = id)) = true ↔ ∀ x ∈ b.entities, x.id ≠ id := by
    intro id
    simp
  unfold danglesB Dangles
  rw [List.any_eq_true]
  refine exists_congr fun e => and_congr_right fun _ => ?_
  rw [List.any_eq_true]
  constructor
  · rintro ⟨⟨f, v⟩, hm, h⟩
    dsimp only at h
    split at h
    · next id => exact ⟨f, id, .inl hm, (hno id).1 h⟩
    · next id g => exact ⟨f, id, .inr ⟨g, hm⟩, (hno id).1 h⟩
    · cases h
  · rintro ⟨f, id, hm | ⟨g, hm⟩, h⟩
    · exact ⟨_, hm, (hno id).2 h⟩
    · exact ⟨_, hm, (hno id).2 h⟩

/-- Schemas of people and tasks, a person, and a task with an owner; other texts: a task of nobody. -/
def exOwnerGrammar (text : Str) : Node :=
  if text = "S".toList then .mk "source_file".toList text
    [exSchemaNode "person" [("name", "string", "true")], exSchemaNode "task" [("owner", "reference", "true")]]
  else if text = "A".toList then .mk "source_file".toList text
    [exEntityNode "person" "alice" [exFieldNode "name" "string" "\"Alice\""]]
  else if text = "T".toList then .mk "source_file".toList text
    [exEntityNode "task" "call" [exFieldNode "owner" "reference" "person.alice"]]
  else .mk "source_file".toList text [exEntityNode "task" "mail" [exFieldNode "owner" "reference" "person.ghost"]]

def exOwnerHost : Host := { exHost with grammar := exOwnerGrammar }

theorem exOwnerHost_ws : ∀ n ∈ exOwnerHost.ws, ValidName n := exHost_ws

def exOwnerDisk : FsTree :=
  .dir (some [("w".toList, .dir (some [("s.firm".toList, .file (some "S".toList)),
    ("a.firm".toList, .file (some "A".toList)), ("t.firm".toList, .file (some "T".toList))]))])

theorem exOwnerDisk_wf : WellFormed exOwnerDisk := by
  have hv : ∀ n : Str, n ∈ ["w".toList, "s.firm".toList, "a.firm".toList, "t.firm".toList] → ValidName n := by
    intro n hn
    simp only [List.mem_cons, List.not_mem_nil, or_false] at hn
    rcases hn with rfl | rfl | rfl | rfl <;> exact ⟨by decide, by decide, by decide, by decide⟩
  refine .dir (by decide) ?_ ?_
  · intro p hp
    rw [List.mem_singleton.1 hp]
    exact hv _ (by decide)
  · intro p hp
    rw [List.mem_singleton.1 hp]
    refine .dir (by decide) ?_ ?_
    · intro p hp
      simp only [List.mem_cons, List.not_mem_nil, or_false] at hp
      rcases hp with rfl | rfl | rfl <;> exact hv _ (by decide)
    · intro p hp
      simp only [List.mem_cons, List.not_mem_nil, or_false] at hp
      rcases hp with rfl | rfl | rfl <;> exact .file _

def exOwnerState : ServerState :=
  match rebuild exOwnerHost id exOwnerDisk with
  | .ok st => st
  | .error _ => ⟨[], ⟨[], []⟩, .empty⟩

def exOwnerServer : Server := ⟨exOwnerDisk, exOwnerState⟩

theorem exOwnerServer_serves : Serves exOwnerHost exOwnerServer := by
  have h : rebuild exOwnerHost id exOwnerDisk = .ok exOwnerState := by
    unfold exOwnerState
    cases hr : rebuild exOwnerHost id exOwnerDisk with
    | ok st => rfl
    | error e =>
      have : (match rebuild exOwnerHost id exOwnerDisk with | .ok _ => true | .error _ => false) = true := by decide +kernel
      rw [hr] at this
      cases this
  exact rebuild_serves exOwnerDisk_wf exOwnerHost_ws (fun w => List.Perm.refl w) h

/-- C143 is false for deletions: the file of an entity is deleted, and another file refers to the entity. -/
theorem C143_deleted : ∃ (H : Host) (s : Server) (path : Str), Serves H s ∧ ¬ Dangles s.state.build ∧
    (deleteSource H id s path false).2 = .success ∧ Dangles (deleteSource H id s path false).1.state.build := by
  refine ⟨exOwnerHost, exOwnerServer, "a.firm".toList, exOwnerServer_serves, ?_, by decide +kernel, ?_⟩
  · rw [← danglesB_iff]
    decide +kernel
  · rw [← danglesB_iff]
    decide +kernel

/-- C143 is false for changes: a file with a reference to nothing is written without complaint. -/
theorem C143_written : ∃ (H : Host) (s : Server) (path content : Str), Serves H s ∧ ¬ Dangles s.state.build ∧
    (writeSource H id s path content false).2 = .success ∧ Dangles (writeSource H id s path content false).1.state.build := by
  refine ⟨exOwnerHost, exOwnerServer, "m.firm".toList, "M".toList, exOwnerServer_serves, ?_, by decide +kernel, ?_⟩
  · rw [← danglesB_iff]
    decide +kernel
  · rw [← danglesB_iff]
    decide +kernel

/-! ## Examples -/

/-- The file with the schemas cannot be deleted. -/
example : (deleteSource exOwnerHost id exOwnerServer "s.firm".toList false).2 = .error ∧
    (deleteSource exOwnerHost id exOwnerServer "a.firm".toList false).2 = .success ∧
    (deleteSource exOwnerHost id exOwnerServer "a.firm".toList false).1.state.build.entities.map (·.id) =
      ["task.call".toList] := by decide +kernel

theorem exOwner_readable : Readable exOwnerHost.ws exOwnerDisk := by
  obtain ⟨w, r, h1, h2, _⟩ := C71_load exOwnerGrammar ["w".toList] exOwnerDisk _ exOwnerDisk_wf exHost_ws
    ((has_iff_lookup exOwnerDisk_wf).2 (rfl : exOwnerDisk.lookup ["w".toList] = some _))
  exact h2.1 (by
    have : (Workspace.loadDirectory exOwnerGrammar [] (placeText ["w".toList]) (.dir (some [("s.firm".toList, .file (some "S".toList)),
      ("a.firm".toList, .file (some "A".toList)), ("t.firm".toList, .file (some "T".toList))]))).2 = .ok () := by decide +kernel
    rw [h1] at this
    exact this)

theorem exOwner_file : FirmFile exOwnerDisk exOwnerHost.ws ["a.firm".toList] "A".toList ∧
    FirmFile exOwnerDisk exOwnerHost.ws ["s.firm".toList] "S".toList :=
  ⟨⟨⟨[], _, rfl, "a".toList, by decide, rfl⟩, (has_iff_lookup exOwnerDisk_wf).2 rfl⟩,
    ⟨[], _, rfl, "s".toList, by decide, rfl⟩, (has_iff_lookup exOwnerDisk_wf).2 rfl⟩

/-- The hypotheses of the theorems, for the file of the person and for that of the schemas. -/
example : (deleteSource exOwnerHost id exOwnerServer (joinWith ['/'] ["a.firm".toList]) false).2 = .success := by
  have hno : ∀ n ∈ (exOwnerHost.grammar "A".toList).children, n.kind ≠ "schema_block".toList := by decide +kernel
  exact C143_entities exOwnerHost exOwnerHost_ws id (fun w => List.Perm.refl w) exOwnerServer exOwnerDisk_wf
    exOwnerServer_serves exOwner_readable exOwner_file.1 hno

example : Orphans exOwnerHost exOwnerServer.disk ["s.firm".toList] := by
  have h : (deleteSource exOwnerHost id exOwnerServer (joinWith ['/'] ["s.firm".toList]) false).2 = .error := by decide +kernel
  exact (C143_delete_partial exOwnerHost exOwnerHost_ws id (fun w => List.Perm.refl w) exOwnerServer exOwnerDisk_wf
    exOwnerServer_serves exOwner_readable exOwner_file.2).1.1 h

example : SameButTargets ⟨"task.call".toList, "task".toList, [("owner".toList, .reference (.entity "person.alice".toList))]⟩
    ⟨"task.mail".toList, "task".toList, [("owner".toList, .reference (.entity "person.ghost".toList))]⟩ :=
  ⟨rfl, .cons ⟨rfl, .inr (.inl ⟨_, _, rfl, rfl⟩)⟩ .nil⟩

end Firm
