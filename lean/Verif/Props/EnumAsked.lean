import Verif.Props.Typed
import Verif.Props.Prompted

/-!
# Asking for an enum value

C153. A schema lists the values an enum field may have. A condition `status == "…"` with a value that is not on the list
is not rejected; it is never true. Whether two spellings are the same value is decided differently by the schemas and by
the conditions.
-/

namespace Firm
open Spec

/-! ## Specification -/

/-- Lower-casing does not depend on the case of the letters A–Z. -/
def Spec.CaseBlind (env : Env) : Prop := ∀ a b, SameText a b → env.lower a = env.lower b

/-- The schemas count the two spellings as the same value. -/
def Spec.SameValue (env : Env) (x v : Str) : Prop := env.lower (trim x) = env.lower (trim v)

/-- The texts a condition can compare with an enum. -/
def Spec.asksFor : FilterValue → Option Str
  | .string s => some s
  | .enum s => some s
  | .path s => some s
  | _ => none

/-- Every schema of the type declares the field as an enum, and `v` is none of the allowed values. -/
def Spec.NotOffered (env : Env) (ss : List EntitySchema) (t : EntityType) (f : FieldId) (v : Str) : Prop :=
  ∀ s ∈ ss, s.entityType = t → ∃ fs allowed, (f, fs) ∈ s.fields ∧ fs.fieldType = .enum ∧
    fs.allowedValues = some allowed ∧ env.lower (trim v) ∉ allowed

/-! ## Proofs -/

theorem sameText_trim {a b : Str} (h : SameText a b) : SameText (trim a) (trim b) := by
  have hch : ∀ c : Char, isWs c.toLower = isWs c := by
    intro c
    rcases toLower_cases c with h | ⟨h1, h2⟩
    · rw [h]
    · have key : ∀ n < 91, 65 ≤ n → isWs (Char.ofNat n).toLower = isWs (Char.ofNat n) := by decide
      have := key c.toNat h2 h1
      rwa [Char.ofNat_toNat] at this
  have hdrop : ∀ s : Str, (s.map Char.toLower).dropWhile isWs = (s.dropWhile isWs).map Char.toLower := by
    intro s
    rw [List.dropWhile_map]
    congr 1
    exact congrArg (fun p => List.dropWhile p s) (funext fun c => hch c)
  have htrim : ∀ s : Str, trim (s.map Char.toLower) = (trim s).map Char.toLower := by
    intro s
    unfold trim trimEnd trimStart
    rw [hdrop, ← List.map_reverse, hdrop, ← List.map_reverse]
  rw [sameText_iff] at h ⊢
  unfold asciiLower at h ⊢
  rw [← htrim, ← htrim, h]

/-- C153: what a condition takes for the same value, the schemas do too. -/
theorem C153_finer {env : Env} (hb : CaseBlind env) {x v : Str} {w : FilterValue} (hw : asksFor w = some v)
    (h : compareField env (.enum x) .equal w = .ok true) : SameValue env x v := by
  have hv : w = .string v ∨ w = .enum v ∨ w = .path v := by
    cases w <;> simp only [asksFor] at hw <;> cases hw
    · exact .inl rfl
    · exact .inr (.inr rfl)
    · exact .inr (.inl rfl)
  exact hb _ _ (sameText_trim ((compare_texts (env := env) (fv := .enum x) rfl hv).1 h))

/-- C153, partial: the two agree on spellings without blanks at the ends and without letters beyond A–Z. Missing: other
spellings, for which they differ (`C153_blanks`, `C153_accents`). -/
theorem C153_agree_partial {env : Env} {x v : Str} (ha : env.lower x = asciiLower x) (hb : env.lower v = asciiLower v)
    (hx : trim x = x) (hv : trim v = v) {w : FilterValue} (hw : asksFor w = some v) :
    compareField env (.enum x) .equal w = .ok true ↔ SameValue env x v := by
  have hw' : w = .string v ∨ w = .enum v ∨ w = .path v := by
    cases w <;> simp only [asksFor] at hw <;> cases hw
    · exact .inl rfl
    · exact .inr (.inr rfl)
    · exact .inr (.inl rfl)
  rw [compare_texts (env := env) (fv := .enum x) rfl hw', sameText_iff, SameValue, hx, hv, ha, hb]

/-- C153: a value that is not offered is had by no conforming entity: the condition that asks for it answers "no" for
each of them, and is not rejected. -/
theorem C153_never {env : Env} (hb : CaseBlind env) {ss : List EntitySchema} {es : List Entity}
    (hc : AllConform env ss es) {t : EntityType} {f : FieldId} {v : Str} (hn : NotOffered env ss t f v) {w : FilterValue}
    (hw : asksFor w = some v) {e : Entity} (he : e ∈ es) (ht : e.entityType = t) :
    FilterCondition.matches env ⟨.regular f, .equal, w⟩ e = .ok false := by
  show FilterCondition.matchesField env ⟨.regular f, .equal, w⟩ e f = .ok false
  unfold FilterCondition.matchesField
  cases hg : e.getField f with
  | none => rfl
  | some fv =>
    obtain ⟨s, hs, hst, hf⟩ := hc e he
    obtain ⟨fs, allowed, hm, hty, hal, hno⟩ := hn s hs (hst ▸ ht)
    obtain ⟨h1, h2⟩ := (hf f fs hm).1 fv (getField_iff.1 hg)
    rw [hty] at h1
    cases fv with
    | enum x =>
      obtain ⟨al, h3, h4⟩ := h2 x rfl
      rw [hal] at h3
      cases h3
      have hk : ∃ b, compareField env (.enum x) .equal w = .ok b := by
        cases w <;> simp only [asksFor] at hw <;> first | cases hw; done | exact ⟨_, rfl⟩
      obtain ⟨b, hk⟩ := hk
      cases b with
      | false => exact hk
      | true =>
        have := C153_finer hb hw hk
        rw [SameValue] at this
        rw [this] at h4
        exact absurd h4 hno
    | _ => cases h1

/-- C153: so the query for it gives the empty result, whatever the entities and whatever follows of conditions,
orderings, limits and steps. -/
theorem C153_nothing (gops : List GOp) {env : Env} (hb : CaseBlind env) (rt : Runtime) {ss : List EntitySchema}
    (hc : AllConform env ss (accepted gops)) {t : EntityType} {f : FieldId} {v : Str} (hn : NotOffered env ss t f v)
    {w : FilterValue} (hw : asksFor w = some v) (ops : List QueryOperation) (hne : ∃ e ∈ accepted gops, e.entityType = t) :
    Query.execute env rt (Graph.run gops) ⟨.type t, .where (.single ⟨.regular f, .equal, w⟩) :: ops, none⟩ =
      .ok (.entities []) := by
  have hI := Inv.run gops
  have hsel : selectFrom rt (Graph.run gops) (.type t) = .ok ((Graph.run gops).listByType t) := by
    rw [selectFrom]
    rw [if_pos]
    rw [(rt.order_perm 0 _).mem_iff, (C03_all_types gops).2]
    exact hne
  have hfilter : ∀ es : List Entity, (∀ e ∈ es, e ∈ accepted gops ∧ e.entityType = t) →
      filterEntities env (.single ⟨.regular f, .equal, w⟩) es = .ok [] := by
    intro es
    induction es with
    | nil => intro _; rfl
    | cons e es ih =>
      intro h
      obtain ⟨h1, h2⟩ := h e List.mem_cons_self
      have hm : CompoundCondition.matches env (.single ⟨.regular f, .equal, w⟩) e = .ok false := by
        simp only [CompoundCondition.matches, CompoundCondition.single, collectResults, C153_never hb hc hn hw h1 h2]
        rfl
      rw [filterEntities, hm]
      dsimp only
      rw [ih (fun x hx => h x (List.mem_cons_of_mem _ hx))]
      rfl
  have hrest : ∀ ops : List QueryOperation, applyOperations env rt (Graph.run gops) ops [] = .ok [] := by
    intro ops
    induction ops with
    | nil => rfl
    | cons op ops ih =>
      have hone : applyOperation env rt ops.length (Graph.run gops) [] op = .ok [] := by
        cases op with
        | «where» c => rfl
        | limit n => show Except.ok (List.take n []) = _; rw [List.take_nil]
        | order o dir =>
          show orderBy env rt o dir [] = .ok []
          unfold orderBy
          rw [rt.sort_stable _ _ (fun a ha => by cases ha) (fun a ha => by cases ha)]
          rfl
        | related d u =>
          show Except.ok (getRelatedEntities rt ops.length (Graph.run gops) [] d u) = _
          congr 1
          cases d with
          | zero => simp [getRelatedEntities]
          | succ d =>
            rw [List.eq_nil_iff_forall_not_mem]
            intro e he
            have := ((hI.mem_getRelatedEntities rt ops.length [] (fun x hx => by cases hx) (d + 1) (by omega) u e).1 he)
            obtain ⟨_, ⟨x, hx, _⟩, _⟩ := this
            cases hx
      rw [applyOperations, hone]
      exact ih
  simp only [Query.execute, hsel, applyOperations, applyOperation]
  rw [hfilter _ (by
    intro e he
    rw [hI.listByType_eq, nodes_run] at he
    obtain ⟨h1, h2⟩ := List.mem_filter.1 he
    exact ⟨h1, beq_iff_eq.1 h2⟩)]
  dsimp only
  rw [hrest]

/-- C153: in conditions joined by `or`, one that asks for a value that is not offered can be left out. -/
theorem C153_alternative {env : Env} (hb : CaseBlind env) {ss : List EntitySchema} {es : List Entity}
    (hc : AllConform env ss es) {t : EntityType} {f : FieldId} {v : Str} (hn : NotOffered env ss t f v) {w : FilterValue}
    (hw : asksFor w = some v) {e : Entity} (he : e ∈ es) (ht : e.entityType = t) (cs ds : List FilterCondition) :
    CompoundCondition.matches env ⟨cs ++ ⟨.regular f, .equal, w⟩ :: ds, .or⟩ e =
      CompoundCondition.matches env ⟨cs ++ ds, .or⟩ e := by
  have hm := C153_never hb hc hn hw he ht
  have key : ∀ cs : List FilterCondition,
      (∃ x, collectResults (fun c => FilterCondition.matches env c e) (cs ++ ⟨.regular f, .equal, w⟩ :: ds) = .error x ∧
        collectResults (fun c => FilterCondition.matches env c e) (cs ++ ds) = .error x) ∨
      ∃ l l', collectResults (fun c => FilterCondition.matches env c e) (cs ++ ⟨.regular f, .equal, w⟩ :: ds) = .ok l ∧
        collectResults (fun c => FilterCondition.matches env c e) (cs ++ ds) = .ok l' ∧ l.any id = l'.any id := by
    intro cs
    induction cs with
    | nil =>
      rw [List.nil_append, List.nil_append, collectResults, hm]
      cases hd : collectResults (fun c => FilterCondition.matches env c e) ds with
      | error x => exact .inl ⟨x, rfl, rfl⟩
      | ok l => exact .inr ⟨_, l, rfl, rfl, rfl⟩
    | cons c cs ih =>
      rw [List.cons_append, List.cons_append, collectResults, collectResults]
      cases hcm : FilterCondition.matches env c e with
      | error x => exact .inl ⟨x, rfl, rfl⟩
      | ok b =>
        dsimp only
        rcases ih with ⟨x, h1, h2⟩ | ⟨l, l', h1, h2, h3⟩
        · rw [h1, h2]; exact .inl ⟨x, rfl, rfl⟩
        · rw [h1, h2]
          refine .inr ⟨_, _, rfl, rfl, ?_⟩
          rw [List.any_cons, List.any_cons, h3]
  unfold CompoundCondition.matches
  rcases key cs with ⟨x, h1, h2⟩ | ⟨l, l', h1, h2, h3⟩
  · dsimp only; rw [h1, h2]
  · dsimp only; rw [h1, h2]; dsimp only; rw [h3]

/-! ## The documentation -/

theorem default_notOffered {L : Lang} (hL : PlainCase L) {t f v : String}
    (h : (defaultSchemas exLang).all (fun s => s.entityType != t.toList || s.fields.any fun d =>
      d.1 == f.toList && d.2.fieldType == .enum && match d.2.allowedValues with
        | some al => !al.contains v.toList
        | none => false) = true) (hv : v.toList.all (fun c => 97 ≤ c.toNat && c.toNat ≤ 122) = true) (hw : trim v.toList = v.toList) :
    NotOffered L.env (defaultSchemas L) t.toList f.toList v.toList := by
  rw [defaultSchemas_plain hL]
  intro s hs ht
  have h1 := List.all_eq_true.1 h s hs
  rw [ht, bne_self_eq_false, Bool.false_or] at h1
  obtain ⟨⟨g, fs⟩, hm, h2⟩ := List.any_eq_true.1 h1
  rw [Bool.and_eq_true, Bool.and_eq_true, beq_iff_eq, beq_iff_eq] at h2
  obtain ⟨⟨rfl, h3⟩, h4⟩ := h2
  dsimp only at h3 h4
  cases hal : fs.allowedValues with
  | none => rw [hal] at h4; cases h4
  | some al =>
    rw [hal] at h4
    refine ⟨fs, al, hm, h3, hal, ?_⟩
    rw [hw, hL.lower _ (fun c hc => by
      have := List.all_eq_true.1 hv c hc
      simp only [Bool.and_eq_true, decide_eq_true_eq] at this
      exact .inl this)]
    intro hmem
    rw [Bool.not_eq_true'] at h4
    exact absurd (List.contains_iff_mem.2 hmem) (by rw [h4]; exact Bool.noConfusion)

/-- C153: the query `from project | where status == "active" | related task` of the documentation gives nothing in every
workspace with the built-in schemas that has a project: "active" is no status of projects. -/
theorem C153_documented {L : Lang} (hL : PlainCase L) (hb : CaseBlind L.env) (gops : List GOp) (rt : Runtime)
    (hc : AllConform L.env (defaultSchemas L) (accepted gops))
    (hne : ∃ e ∈ accepted gops, e.entityType = "project".toList) :
    Query.execute L.env rt (Graph.run gops) ⟨.type "project".toList,
      [.where (.single ⟨.regular "status".toList, .equal, .string "active".toList⟩), .related 1 (some "task".toList)],
      none⟩ = .ok (.entities []) :=
  C153_nothing gops hb rt hc
    (default_notOffered hL (t := "project") (f := "status") (v := "active") (by decide +kernel) (by decide +kernel)
      (by decide +kernel)) rfl _ hne

/-- C153: of the three alternatives of the documentation, `status == enum"open" or status == enum"negotiation" or
status == enum"proposal"`, only the first can be met by an opportunity of the built-in schemas. -/
theorem C153_open {L : Lang} (hL : PlainCase L) (hb : CaseBlind L.env) {es : List Entity}
    (hc : AllConform L.env (defaultSchemas L) es) {e : Entity} (he : e ∈ es) (ht : e.entityType = "opportunity".toList) :
    CompoundCondition.matches L.env ⟨[⟨.regular "status".toList, .equal, .enum "open".toList⟩,
        ⟨.regular "status".toList, .equal, .enum "negotiation".toList⟩,
        ⟨.regular "status".toList, .equal, .enum "proposal".toList⟩], .or⟩ e =
      CompoundCondition.matches L.env ⟨[⟨.regular "status".toList, .equal, .enum "open".toList⟩], .or⟩ e := by
  have h1 := C153_alternative hb hc
    (default_notOffered hL (t := "opportunity") (f := "status") (v := "negotiation") (by decide +kernel)
      (by decide +kernel) (by decide +kernel)) (w := .enum "negotiation".toList) rfl he ht
    [⟨.regular "status".toList, .equal, .enum "open".toList⟩]
    [⟨.regular "status".toList, .equal, .enum "proposal".toList⟩]
  have h2 := C153_alternative hb hc
    (default_notOffered hL (t := "opportunity") (f := "status") (v := "proposal") (by decide +kernel)
      (by decide +kernel) (by decide +kernel)) (w := .enum "proposal".toList) rfl he ht
    [⟨.regular "status".toList, .equal, .enum "open".toList⟩] []
  exact h1.trans h2

/-! ## Where schemas and conditions differ -/

/-- A schema with one status. -/
def exOpenSchema (status : String) : EntitySchema :=
  ⟨"deal".toList, [("status".toList, ⟨.enum, .required, 0, some [status.toList]⟩)]⟩

/-- An entity with a status. -/
def exOpenDeal (status : String) : Entity := ⟨"deal.a".toList, "deal".toList, [("status".toList, .enum status.toList)]⟩

/-- C153: a value with a blank at its end conforms, but the condition that asks for the allowed value does not find it. -/
theorem C153_blanks : Conforms exEnv (exOpenSchema "open") (exOpenDeal "open ") ∧
    SameValue exEnv "open ".toList "open".toList ∧
    FilterCondition.matches exEnv ⟨.regular "status".toList, .equal, .enum "open".toList⟩ (exOpenDeal "open ") =
      .ok false := by
  refine ⟨(C15_verdict _ _ _).1 (by decide +kernel), by unfold SameValue; decide +kernel, by decide +kernel⟩

/-- A lower-casing that knows one letter beyond A–Z. -/
def exAccentEnv : Env := { exEnv with lower := fun s => s.map fun c => if c = 'É' then 'é' else c.toLower }

theorem exAccentEnv_blind : CaseBlind exAccentEnv := by
  intro a b h
  rw [sameText_iff] at h
  have key : ∀ s : Str, exAccentEnv.lower s = (asciiLower s).map fun c => if c = 'É' then 'é' else c := by
    intro s
    show s.map _ = (s.map Char.toLower).map _
    rw [List.map_map]
    refine List.map_congr_left fun c _ => ?_
    show _ = if c.toLower = 'É' then 'é' else c.toLower
    by_cases hc : c = 'É'
    · subst hc; decide
    · rw [if_neg hc, if_neg]
      intro h
      rcases toLower_cases c with h' | ⟨h1, h2⟩
      · rw [h'] at h; exact hc h
      · have key : ∀ n < 91, 65 ≤ n → (Char.ofNat n).toLower ≠ 'É' := by decide
        have := key c.toNat h2 h1
        rw [Char.ofNat_toNat] at this
        exact this h
  rw [key, key, h]

/-- C153: a value with a capital beyond A–Z conforms, but the condition that asks for the allowed value does not find it. -/
theorem C153_accents : CaseBlind exAccentEnv ∧ Conforms exAccentEnv (exOpenSchema "été") (exOpenDeal "Été") ∧
    SameValue exAccentEnv "Été".toList "été".toList ∧
    FilterCondition.matches exAccentEnv ⟨.regular "status".toList, .equal, .enum "été".toList⟩ (exOpenDeal "Été") =
      .ok false := by
  refine ⟨exAccentEnv_blind, (C15_verdict _ _ _).1 (by decide +kernel), by unfold SameValue; decide +kernel,
    by decide +kernel⟩

/-! ## Examples -/

theorem exEnv_blind : CaseBlind exEnv := fun _ _ h => sameText_iff.1 h

/-- A project and a task that belongs to it. -/
def exProjectOps : List GOp :=
  [.add ⟨"project.a".toList, "project".toList, [("name".toList, .string "A".toList),
      ("status".toList, .enum "in progress".toList)]⟩,
    .add ⟨"task.b".toList, "task".toList, [("name".toList, .string "B".toList),
      ("source_ref".toList, .reference (.entity "project.a".toList))]⟩, .build]

example : (∀ e ∈ accepted exProjectOps, ∃ s ∈ defaultSchemas exLang, s.validate exEnv e = .ok ()) ∧
    (∃ e ∈ accepted exProjectOps, e.entityType = "project".toList) ∧ PlainCase exLang ∧ CaseBlind exLang.env :=
  ⟨by decide +kernel, by decide +kernel, exLang_plain, exEnv_blind⟩
example : Query.execute exEnv exRt (Graph.run exProjectOps) ⟨.type "project".toList,
    [.where (.single ⟨.regular "status".toList, .equal, .string "in progress".toList⟩),
      .related 1 (some "task".toList)], none⟩ =
    .ok (.entities [⟨"task.b".toList, "task".toList, [("name".toList, .string "B".toList),
      ("source_ref".toList, .reference (.entity "project.a".toList))]⟩]) := by decide +kernel
example : compareField exEnv (.enum "Open".toList) .equal (.string "OPEN".toList) = .ok true ∧
    exEnv.lower "Open".toList = asciiLower "Open".toList ∧ trim "Open".toList = "Open".toList := by decide +kernel

end Firm
