import Verif.Spec.Meaning
import Verif.Props.Aggregation
import Verif.Props.QueryFields

/-!
# What a query text asks for (C94)
-/

namespace Firm
open Spec

/-! ## Numbers, fields, values -/

theorem digit_iff (c : Char) : isDigit c = true ↔ ∃ d, c.toNat = 48 + d ∧ d < 10 := by
  unfold isDigit
  simp only [Bool.and_eq_true, decide_eq_true_eq]
  show (48 ≤ c.toNat ∧ c.toNat ≤ 57) ↔ _
  constructor
  · rintro ⟨h1, h2⟩
    exact ⟨c.toNat - 48, by omega, by omega⟩
  · rintro ⟨d, h1, h2⟩
    omega

theorem numeral_digits (s : Str) : ∀ (pre : Str) (n : Nat), Numeral pre n → (∀ c ∈ s, isDigit c = true) →
    Numeral (pre ++ s) (s.foldl (fun a c => a * 10 + digitVal c) n) := by
  induction s with
  | nil => intro pre n h _; simpa using h
  | cons c s ih =>
    intro pre n h hs
    obtain ⟨d, hd, hd'⟩ := (digit_iff c).1 (hs c (by simp))
    have := ih (pre ++ [c]) (10 * n + d) (.more h hd hd') (fun x hx => hs x (by simp [hx]))
    rw [List.append_assoc] at this
    have hv : n * 10 + digitVal c = 10 * n + d := by unfold digitVal; omega
    simpa [hv] using this

theorem parseNat_numeral {s : Str} {n : Nat} (h : parseNat s = some n) : Numeral s n := by
  unfold parseNat at h
  split at h
  · next hc =>
    cases h
    cases s with
    | nil => simp at hc
    | cons c s =>
      simp only [List.isEmpty_cons, Bool.not_false, Bool.true_and, List.all_cons, Bool.and_eq_true,
        List.all_eq_true] at hc
      obtain ⟨d, hd, hd'⟩ := (digit_iff c).1 hc.1
      have := numeral_digits s [c] d (.one hd hd') hc.2
      have hv : digitVal c = d := by unfold digitVal; omega
      simpa [digitsVal, hv] using this
  · cases h

theorem readUsize_numeral {s : Str} {n : Nat} (h : readUsize s = .ok n) : Numeral s n := by
  unfold readUsize at h
  split at h
  · next m hm =>
    split at h
    · cases h; exact parseNat_numeral hm
    · cases h
  · cases h

theorem convertField_named (T : CaseTable) (f : QField) : FieldNamed T f (convertField T f) := by
  cases f with
  | metadata n =>
    simp only [convertField]
    split
    · next h => subst h; exact .id
    · next h => exact .type h
  | regular n => exact .regular n

theorem convertNumber_meant {L : Lang} {t : Str} {x : F64} (h : L.parseF64 t = some x) :
    ValueMeant L (.number t) (convertNumber x) := by
  cases x with
  | negZero => exact .whole (n := 0) h (by simp [finiteValue]) (by norm_num) (by norm_num)
  | fin q =>
    simp only [convertNumber]
    split
    · next hq =>
      have hq' : finiteValue (.fin q) = some (q.num : Rat) := by
        simp only [finiteValue, Option.some.injEq]
        exact (Rat.den_eq_one_iff q).1 hq |>.symm
      by_cases h1 : q.num < -(2 ^ 63)
      · have : max (-2 ^ 63) (min (2 ^ 63 - 1) q.num) = -(2 ^ 63) := by omega
        rw [this]
        exact .tooSmall h hq' h1
      · by_cases h2 : 2 ^ 63 ≤ q.num
        · have : max (-2 ^ 63) (min (2 ^ 63 - 1) q.num) = 2 ^ 63 - 1 := by omega
          rw [this]
          exact .tooLarge h hq' h2
        · have : max (-2 ^ 63) (min (2 ^ 63 - 1) q.num) = q.num := by omega
          rw [this]
          exact .whole h hq' (by omega) (by omega)
    · next hq =>
      refine .fraction h ?_
      intro n hn
      simp only [finiteValue, Option.some.injEq] at hn
      subst hn
      exact hq (by simp)
  | inf s => exact .fraction h (by simp [finiteValue])
  | nan => exact .fraction h (by simp [finiteValue])

theorem readF64_some {L : Lang} {t : Str} {x : F64} (h : readF64 L t = .ok x) : L.parseF64 t = some x := by
  unfold readF64 at h
  split at h
  · next y hy => cases h; exact hy
  · cases h

mutual
theorem value_meant {L : Lang} : ∀ {v : QValue} {w : ParsedQueryValue}, readQValue L v = .ok w →
    ValueMeant L v (convertValue w)
  | .string s, w, h => by cases h; exact .string s
  | .number t, w, h => by
    simp only [readQValue] at h
    split at h
    · next x hx => cases h; exact convertNumber_meant (readF64_some hx)
    · cases h
  | .boolean b, w, h => by cases h; exact .boolean b
  | .currency t c, w, h => by
    simp only [readQValue] at h
    split at h
    · next x hx => cases h; exact .currency c (readF64_some hx)
    · cases h
  | .dateTime t, w, h => by cases h; exact .dateTime t
  | .reference t, w, h => by cases h; exact .reference t
  | .path s, w, h => by cases h; exact .path s
  | .enum s, w, h => by cases h; exact .enum s
  | .list vs, w, h => by
    simp only [readQValue] at h
    split at h
    · next ws hws => cases h; exact .list (values_meant hws)
    · cases h
theorem values_meant {L : Lang} : ∀ {vs : List QValue} {ws : List ParsedQueryValue},
    readQValues L vs = .ok ws → List.Forall₂ (ValueMeant L) vs (convertValues ws)
  | [], ws, h => by cases h; exact .nil
  | v :: vs, ws, h => by
    simp only [readQValues] at h
    split at h
    · cases h
    · next w hw =>
      split at h
      · cases h
      · next ws' hws => cases h; exact .cons (value_meant hw) (values_meant hws)
end

/-! ## Clauses -/

theorem matches_valueAt (env : Env) (c : FilterCondition) (e : Entity) :
    c.matches env e = match valueAt e c.field with
      | some v => compareField env v c.operator c.value
      | none => .ok false := by
  obtain ⟨f, op, w⟩ := c
  cases f with
  | regular f =>
    simp only [FilterCondition.matches, FilterCondition.matchesField, valueAt]
    cases e.getField f <;> rfl
  | metadata m => cases m <;> rfl

theorem fieldNamed_unique {T : CaseTable} {n : QField} {f g : FieldRef} (h : FieldNamed T n f)
    (h' : FieldNamed T n g) : f = g := by
  cases h with
  | id => cases h' with
    | id => rfl
    | type h => exact absurd rfl h
  | type h => cases h' with
    | id => exact absurd rfl h
    | type => rfl
  | regular n => cases h'; rfl

mutual
theorem meant_unique {L : Lang} : ∀ {v : QValue} {w w' : FilterValue}, ValueMeant L v w → ValueMeant L v w' → w = w'
  | .string s, w, w', h, h' => by cases h; cases h'; rfl
  | .number t, w, w', h, h' => by
    have key : ∀ {x : F64} {n m : Int}, finiteValue x = some (n : Rat) → finiteValue x = some (m : Rat) → n = m := by
      intro x n m h1 h2
      rw [h1] at h2
      exact_mod_cast Option.some.inj h2
    cases h with
    | whole h1 h2 h3 h4 =>
      cases h' with
      | whole k1 k2 k3 k4 => rw [h1] at k1; cases k1; rw [key h2 k2]
      | tooLarge k1 k2 k3 => rw [h1] at k1; cases k1; have := key h2 k2; omega
      | tooSmall k1 k2 k3 => rw [h1] at k1; cases k1; have := key h2 k2; omega
      | fraction k1 k2 => rw [h1] at k1; cases k1; exact absurd h2 (k2 _)
    | tooLarge h1 h2 h3 =>
      cases h' with
      | whole k1 k2 k3 k4 => rw [h1] at k1; cases k1; have := key h2 k2; omega
      | tooLarge k1 k2 k3 => rfl
      | tooSmall k1 k2 k3 => rw [h1] at k1; cases k1; have := key h2 k2; omega
      | fraction k1 k2 => rw [h1] at k1; cases k1; exact absurd h2 (k2 _)
    | tooSmall h1 h2 h3 =>
      cases h' with
      | whole k1 k2 k3 k4 => rw [h1] at k1; cases k1; have := key h2 k2; omega
      | tooLarge k1 k2 k3 => rw [h1] at k1; cases k1; have := key h2 k2; omega
      | tooSmall k1 k2 k3 => rfl
      | fraction k1 k2 => rw [h1] at k1; cases k1; exact absurd h2 (k2 _)
    | fraction h1 h2 =>
      cases h' with
      | whole k1 k2 k3 k4 => rw [h1] at k1; cases k1; exact absurd k2 (h2 _)
      | tooLarge k1 k2 k3 => rw [h1] at k1; cases k1; exact absurd k2 (h2 _)
      | tooSmall k1 k2 k3 => rw [h1] at k1; cases k1; exact absurd k2 (h2 _)
      | fraction k1 k2 => rw [h1] at k1; cases k1; rfl
  | .boolean b, w, w', h, h' => by cases h; cases h'; rfl
  | .currency t c, w, w', h, h' => by
    cases h with
    | currency c h1 => cases h' with
      | currency c h2 => rw [h1] at h2; cases h2; rfl
  | .dateTime t, w, w', h, h' => by cases h; cases h'; rfl
  | .reference t, w, w', h, h' => by cases h; cases h'; rfl
  | .path s, w, w', h, h' => by cases h; cases h'; rfl
  | .enum s, w, w', h, h' => by cases h; cases h'; rfl
  | .list vs, w, w', h, h' => by
    cases h with
    | list h1 => cases h' with
      | list h2 => rw [meants_unique h1 h2]
theorem meants_unique {L : Lang} : ∀ {vs : List QValue} {ws ws' : List FilterValue},
    List.Forall₂ (ValueMeant L) vs ws → List.Forall₂ (ValueMeant L) vs ws' → ws = ws'
  | [], _, _, h, h' => by cases h; cases h'; rfl
  | v :: vs, _, _, h, h' => by
    cases h with
    | cons a b => cases h' with
      | cons c d => rw [meant_unique a c, meants_unique b d]
end

/-- A condition that was read passes exactly the entities that it is meant to. -/
theorem passes_iff {L : Lang} {c : QCond} {p : ParsedCondition} (h : readCond L c = .ok p) (e : Entity) :
    (convertCond L.cases p).matches L.env e = .ok true ↔ Passes L e c := by
  unfold readCond at h
  split at h
  · next v hv =>
    cases h
    rw [matches_valueAt]
    simp only [convertCond]
    constructor
    · intro hm
      cases hva : valueAt e (convertField L.cases c.field) with
      | none => rw [hva] at hm; cases hm
      | some x =>
        rw [hva] at hm
        exact ⟨_, _, x, convertField_named _ _, value_meant hv, hva, hm⟩
    · rintro ⟨f, w, x, h1, h2, h3, h4⟩
      rw [fieldNamed_unique (convertField_named L.cases c.field) h1, h3, meant_unique (value_meant hv) h2]
      exact h4
  · cases h

theorem where_keeps {L : Lang} {c : QCond} {more : List (Combinator × QCond)} {cs : List ParsedCondition}
    (hr : collectResults (readCond L) (c :: more.map (·.2)) = .ok cs) {k : Combinator} {es r : List Entity}
    (h : filterEntities L.env ⟨cs.map (convertCond L.cases), k⟩ es = .ok r) :
    (k = .and → Keeps (fun e => Passes L e c ∧ ∀ m ∈ more, Passes L e m.2) es r) ∧
    (k = .or → Keeps (fun e => Passes L e c ∨ ∃ m ∈ more, Passes L e m.2) es r) := by
  obtain ⟨hok, rfl⟩ := (filterEntities_ok _ _ _ _).1 h
  have hf := collectResults_forall.1 hr
  have hall : ∀ e, (∀ d ∈ cs.map (convertCond L.cases), d.matches L.env e = .ok true) ↔
      Passes L e c ∧ ∀ m ∈ more, Passes L e m.2 := by
    intro e
    have key : ∀ {xs : List QCond} {ys : List ParsedCondition}, List.Forall₂ (fun a b => readCond L a = .ok b) xs ys →
        ((∀ d ∈ ys.map (convertCond L.cases), d.matches L.env e = .ok true) ↔ ∀ x ∈ xs, Passes L e x) := by
      intro xs ys hxy
      induction hxy with
      | nil => simp
      | cons a _ ih => simp only [List.map_cons, List.forall_mem_cons, ih, passes_iff a]
    rw [key hf, List.forall_mem_cons, List.forall_mem_map]
  have hany : ∀ e, (∃ d ∈ cs.map (convertCond L.cases), d.matches L.env e = .ok true) ↔
      Passes L e c ∨ ∃ m ∈ more, Passes L e m.2 := by
    intro e
    have key : ∀ {xs : List QCond} {ys : List ParsedCondition}, List.Forall₂ (fun a b => readCond L a = .ok b) xs ys →
        ((∃ d ∈ ys.map (convertCond L.cases), d.matches L.env e = .ok true) ↔ ∃ x ∈ xs, Passes L e x) := by
      intro xs ys hxy
      induction hxy with
      | nil => simp
      | cons a _ ih => simp only [List.map_cons, List.exists_mem_cons_iff, ih, passes_iff a]
    rw [key hf, List.exists_mem_cons_iff]
    simp only [List.mem_map, exists_exists_and_eq_and]
  have hkeep : ∀ e ∈ es, ∃ b, CompoundCondition.matches L.env ⟨cs.map (convertCond L.cases), k⟩ e = .ok b ∧
      (k = .and → (b = true ↔ ∀ d ∈ cs.map (convertCond L.cases), d.matches L.env e = .ok true)) ∧
      (k = .or → (b = true ↔ ∃ d ∈ cs.map (convertCond L.cases), d.matches L.env e = .ok true)) := by
    intro e he
    obtain ⟨b, hb⟩ := hok e he
    obtain ⟨_, h2⟩ := (compound_ok_iff _ _ _ _).1 hb
    refine ⟨b, hb, ?_, ?_⟩
    · rintro rfl; exact h2
    · rintro rfl; exact h2
  constructor
  · intro hk
    refine ⟨_, rfl, fun e he => ?_⟩
    obtain ⟨b, hb, h1, _⟩ := hkeep e he
    rw [decide_eq_true_eq, hb, Except.ok.injEq, h1 hk]
    exact hall e
  · intro hk
    refine ⟨_, rfl, fun e he => ?_⟩
    obtain ⟨b, hb, _, h1⟩ := hkeep e he
    rw [decide_eq_true_eq, hb, Except.ok.injEq, h1 hk]
    exact hany e

open Classical in
theorem orderBy_ordered {env : Env} {rt : Runtime} {f : FieldRef} {dir : SortDirection} {es r : List Entity}
    (h : orderBy env rt f dir es = .ok r) : Ordered env f dir es r := by
  constructor
  · unfold orderBy at h
    split at h
    · next l hl => cases h; exact rt.sort_perm _ _ _ hl
    · cases h
  · intro hk
    obtain ⟨r', h1, _, h3, h4, _⟩ := C29_stable_sort env rt f dir es hk
    rw [h] at h1
    cases h1
    refine ⟨h3, ?_⟩
    intro x hx keep hkeep
    have : keep = fun e => decide (Tied env f x e) := by
      funext y
      rw [Bool.eq_iff_iff, hkeep, decide_eq_true_eq]
    rw [this]
    exact h4 x hx

theorem related_around (ops : List GOp) (rt : Runtime) (nonce : Nat) {T : CaseTable} {es : List Entity}
    (hs : ∀ s ∈ es, s ∈ accepted ops) {d : Nat} (hd : 1 ≤ d) (sel : Option QSelector) :
    Around (accepted ops) (min d 5) (fun e => ∀ s ∈ sel, Selects T s e) es
      (getRelatedEntities rt nonce (Graph.run (ops ++ [.build])) es d (sel.bind (selectorType T))) := by
  obtain ⟨h1, h2⟩ := C12_related_ball ops rt nonce es hs d hd (sel.bind (selectorType T))
  refine ⟨h1, fun e => ?_⟩
  rw [h2]
  refine and_congr_right fun _ => and_congr_right fun _ => ?_
  cases sel with
  | none => simp
  | some s => cases s <;> simp [selectorType, Selects]

theorem op_clause {L : Lang} {o : QOp} {p : ParsedOperation} (hp : readOp L o = .ok p) (ops : List GOp) (rt : Runtime)
    {nonce : Nat} {es r : List Entity} (hs : ∀ s ∈ es, s ∈ accepted ops)
    (h : applyOperation L.env rt nonce (Graph.run (ops ++ [.build])) es (convertOp L.cases p) = .ok r) :
    Clause L (accepted ops) o es r := by
  cases o with
  | «where» c more =>
    simp only [readOp] at hp
    split at hp
    · cases hp
    · next cs hcs =>
      split at hp
      · cases hp
      · next k hk =>
        cases hp
        have hsame := readCombinator_ok hk
        have hw := where_keeps hcs h
        cases k with
        | and => exact .whereAll (fun m hm => hsame _ (List.mem_map_of_mem hm)) (hw.1 rfl)
        | or =>
          refine .whereAny ?_ (fun m hm => hsame _ (List.mem_map_of_mem hm)) (hw.2 rfl)
          rintro rfl
          cases hk
  | related d sel =>
    cases d with
    | none =>
      cases hp
      cases h
      exact .next (related_around ops rt nonce hs (Nat.le_refl 1) sel)
    | some t =>
      simp only [readOp] at hp
      split at hp
      · next n hn =>
        cases hp
        cases h
        have hnum := readUsize_numeral hn
        by_cases h1 : 1 ≤ n
        · exact .around hnum h1 (related_around ops rt nonce hs h1 sel)
        · have h0 : n = 0 := by omega
          subst h0
          have : getRelatedEntities rt nonce (Graph.run (ops ++ [.build])) es ((some 0).getD 1)
              (sel.bind (selectorType L.cases)) = es := by simp [getRelatedEntities]
          rw [this]
          exact .none hnum
      · cases hp
  | order f d =>
    cases hp
    have ho := orderBy_ordered h
    cases d with
    | none => exact .orderUp (convertField_named _ _) ho
    | some d => exact .order (convertField_named _ _) ho
  | limit t =>
    simp only [readOp] at hp
    split at hp
    · next n hn =>
      cases hp
      cases h
      have := Clause.limit (L := L) (all := accepted ops) (r := es.take n) (rest := es.drop n) (readUsize_numeral hn) (by
        rw [List.length_take]
        by_cases h : n ≤ es.length
        · left; omega
        · right; exact ⟨by omega, List.drop_eq_nil_of_le (by omega)⟩)
      rwa [List.take_append_drop] at this
    · cases hp

theorem ops_clauses {L : Lang} (gops : List GOp) (rt : Runtime) : ∀ {os : List QOp} {ps : List ParsedOperation},
    collectResults (readOp L) os = .ok ps → ∀ {es r : List Entity}, Bag (Graph.run (gops ++ [.build])) es →
    applyOperations L.env rt (Graph.run (gops ++ [.build])) (ps.map (convertOp L.cases)) es = .ok r →
    Clauses L (accepted gops) os es r := by
  intro os ps h
  have hf := collectResults_forall.1 h
  clear h
  have hI := Inv.run (gops ++ [.build])
  have hacc : accepted (gops ++ [.build]) = accepted gops := by
    rw [← nodes_run, ← nodes_run, Graph.run, List.foldl_append]
    rfl
  induction hf with
  | nil => intro es r _ h; cases h; exact .nil _
  | cons hp _ ih =>
    intro es r hb h
    simp only [List.map_cons, applyOperations] at h
    split at h
    · cases h
    · next es' hes' =>
      refine .cons (op_clause hp gops rt ?_ hes') (ih (Bag.applyOperation hI _ rt _ _ hb hes') h)
      intro s hs
      have := hb.1 s hs
      rwa [nodes_run, hacc] at this

/-! ## The result -/

/-- The title of a column. -/
inductive Spec.Title : FieldRef → Str → Prop
  | id : Title (.metadata .id) "@id".toList
  | type : Title (.metadata .type) "@type".toList
  | regular (f : FieldId) : Title (.regular f) f

/-- The sum of a column: of integers, the exact sum, or modulo `2^64` in a build without overflow checks; of
floats and integers, the sum of floats in the given order; of amounts in one currency, the exact sum, unless it
leaves the range of the decimal type. -/
inductive Spec.SumOf (env : Env) : List FieldValue → AggregateValue → Prop
  | empty : SumOf env [] (.integer 0)
  | exact {ns : List Int} : ns ≠ [] → -(2 ^ 63) ≤ total ns → total ns < 2 ^ 63 →
    SumOf env (ns.map .integer) (.integer (total ns))
  | wrapped {ns : List Int} {n : Int} : ns ≠ [] → env.overflowChecks = false → -(2 ^ 63) ≤ n → n < 2 ^ 63 →
    (n - total ns) % 2 ^ 64 = 0 → SumOf env (ns.map .integer) (.integer n)
  | floats {vs : List FieldValue} : (∀ v ∈ vs, IsPlain v) → (∃ x, FieldValue.float x ∈ vs) →
    SumOf env vs (.float ((asFloats env vs).foldl F64.add .negZero))
  | amounts {ds : List Decimal} {c : Str} {d : Decimal} : ds ≠ [] → (Summable ds → d.val = totalAmount ds) →
    SumOf env (ds.map (.currency · c)) (.currency d c)

/-- The average of a column of numbers: their sum as floats in the given order, divided by their number. For
integers of moderate size that is the exact average, rounded. -/
def Spec.AverageOf (env : Env) (vs : List FieldValue) (x : F64) : Prop :=
  vs ≠ [] ∧ (∀ v ∈ vs, IsNumber v) ∧
    x = ((asFloats env vs).foldl F64.add .negZero).divPos ((vs.length : Nat) : Rat) ∧
    ∀ ns : List Int, vs = ns.map .integer → absTotal ns ≤ 2 ^ 53 → x = F64.rnd ((total ns : Rat) / (ns.length : Rat))

/-- The median of a column of numbers: the middle of the sorted numbers, so one of them, or between the two middle
ones. -/
def Spec.MedianOf (env : Env) (vs : List FieldValue) (m : F64) : Prop :=
  vs ≠ [] ∧ (∀ v ∈ vs, IsNumber v) ∧
    ((∀ x ∈ asFloats env vs, x ≠ .nan) → ∃ s, s.Perm (asFloats env vs) ∧ s.Pairwise FloatNotAfter ∧ Middle s m) ∧
    ((asFloats env vs).length % 2 = 1 → (∀ x ∈ asFloats env vs, x ≠ .nan) → m ∈ asFloats env vs ∧
      (asFloats env vs).length ≤ 2 * atMost m (asFloats env vs) ∧
      (asFloats env vs).length ≤ 2 * atLeast m (asFloats env vs)) ∧
    ((asFloats env vs).length % 2 = 0 → (∀ x ∈ asFloats env vs, Moderate x) →
      ∃ a ∈ asFloats env vs, ∃ b ∈ asFloats env vs, FloatNotAfter a m ∧ FloatNotAfter m b ∧
        (asFloats env vs).length ≤ 2 * atMost a (asFloats env vs) ∧
        (asFloats env vs).length ≤ 2 * atLeast b (asFloats env vs))

/-- What the last part of a query makes of the entities. -/
inductive Spec.Result (L : Lang) (es : List Entity) : Option QAgg → QueryResult → Prop
  | entities : Result L es none (.entities es)
  | select {ns : List QField} {fs : List FieldRef} {titles : List Str} : List.Forall₂ (FieldNamed L.cases) ns fs →
    List.Forall₂ Title fs titles →
    Result L es (some (.select ns)) (.aggregation (.select titles (es.map fun e => fs.map (valueAt e))))
  | count : Result L es (some (.count none)) (.aggregation (.count es.length))
  | countField {n : QField} {f : FieldRef} : FieldNamed L.cases n f →
    Result L es (some (.count (some n))) (.aggregation (.count (es.countP fun e => (valueAt e f).isSome)))
  | sum {n : QField} {f : FieldId} {v : AggregateValue} : FieldNamed L.cases n (.regular f) →
    SumOf L.env (present f es) v → Result L es (some (.sum n)) (.aggregation (.sum v))
  | average {n : QField} {f : FieldId} {x : F64} : FieldNamed L.cases n (.regular f) →
    AverageOf L.env (present f es) x → Result L es (some (.average n)) (.aggregation (.average x))
  | median {n : QField} {f : FieldId} {x : F64} : FieldNamed L.cases n (.regular f) →
    MedianOf L.env (present f es) x → Result L es (some (.median n)) (.aggregation (.median x))

/-- The query asks for this result, where `all` are the entities of the graph. -/
def Spec.Asks (L : Lang) (all : List Entity) (q : QTree) (r : QueryResult) : Prop :=
  ∃ start es, Starts L.cases all q.source start ∧ Clauses L all q.operations start es ∧
    Result L es q.aggregation r

theorem sumI64_range {env : Env} : ∀ {ns : List Int} {acc n : Int}, ns ≠ [] → env.overflowChecks = true →
    sumI64 env acc ns = .ok n → -(2 ^ 63) ≤ n ∧ n < 2 ^ 63
  | [], acc, n, h, _, _ => absurd rfl h
  | m :: ns, acc, n, _, hc, h => by
    simp only [sumI64] at h
    split at h
    · next a ha =>
      unfold addI64 at ha
      split at ha
      · next hi =>
        cases ha
        cases ns with
        | nil =>
          cases h
          simpa [isI64] using hi
        | cons k ns => exact sumI64_range (by simp) hc h
      · cases ha
    · cases h

theorem sumI64_checked {env : Env} (hc : env.overflowChecks = true) : ∀ {ns : List Int} {acc n : Int},
    sumI64 env acc ns = .ok n → n = acc + total ns
  | [], acc, n, h => by cases h; simp [total]
  | m :: ns, acc, n, h => by
    simp only [sumI64] at h
    split at h
    · next a ha =>
      unfold addI64 at ha
      split at ha
      · cases ha
        rw [sumI64_checked hc h, total]
        omega
      · cases ha
    · cases h

theorem plain_of_not_currency {v : FieldValue} (h : IsNumber v) (hc : ¬ ∃ d c, v = .currency d c) : IsPlain v := by
  cases v <;> simp_all [IsNumber, IsPlain]

theorem sum_floats (env : Env) (f : FieldId) (es : List Entity)
    (h : ∀ v ∈ present f es, IsPlain v) (hf : ∃ x, FieldValue.float x ∈ present f es) :
    Aggregation.execute env (.sum (.regular f)) es =
      .ok (.sum (.float ((asFloats env (present f es)).foldl F64.add .negZero))) := by
  obtain ⟨x, hx⟩ := hf
  rw [executeSum_of_values env f es
    (fun v hv => by have := h v hv; cases v <;> simp_all [IsPlain, IsNumber]) (List.ne_nil_of_mem hx),
    (classify_plain _ ?_).1 ⟨x, mem_nums_float.2 hx⟩]
  · simp only [asFloats_eq]
    rfl
  · rintro ⟨d, c, hd⟩
    exact absurd (h _ (mem_nums_currency.1 hd)) (by simp [IsPlain])

theorem execute_sum {env : Env} {f : FieldId} {es : List Entity} {r : AggregationResult}
    (h : Aggregation.execute env (.sum (.regular f)) es = .ok r) : ∃ v, r = .sum v ∧ SumOf env (present f es) v := by
  have hnum : ∀ v ∈ present f es, IsNumber v := by
    by_contra hn
    obtain ⟨_, v, _, _, _, _, he⟩ := C38_non_numeric env f es (by
      simpa using hn)
    rw [h] at he
    cases he
  by_cases hcur : ∃ d c, FieldValue.currency d c ∈ present f es
  · obtain ⟨d0, c, hd0⟩ := hcur
    have hcode : ∀ v ∈ present f es, ∃ d, v = .currency d c := by
      intro v hv
      by_cases hvc : ∃ d c, v = .currency d c
      · obtain ⟨d, c', rfl⟩ := hvc
        by_cases hne : c = c'
        · subst hne; exact ⟨d, rfl⟩
        · obtain ⟨e, he, _⟩ := C38_mixed_codes env f es d0 d c c' hne hd0 hv
          rw [h] at he
          cases he
      · have := C38_currency_and_number env f es hnum ⟨d0, c, hd0⟩ ⟨v, hv, plain_of_not_currency (hnum v hv) hvc⟩
        rw [h] at this
        cases this
    have hlist : ∀ vs : List FieldValue, (∀ v ∈ vs, ∃ d, v = .currency d c) →
        ∃ ds : List Decimal, vs = ds.map (.currency · c) := by
      intro vs
      induction vs with
      | nil => intro _; exact ⟨[], rfl⟩
      | cons v vs ih =>
        intro hv
        obtain ⟨d, rfl⟩ := hv v (by simp)
        obtain ⟨ds, rfl⟩ := ih (fun w hw => hv w (by simp [hw]))
        exact ⟨d :: ds, rfl⟩
    obtain ⟨ds, hds⟩ := hlist _ hcode
    have hne : ds ≠ [] := by rintro rfl; rw [hds] at hd0; simp at hd0
    have hex : ∃ d, r = .sum (.currency d c) := by
      rw [executeSum_currency env f es c ds hds hne] at h
      split at h
      · next d _ => cases h; exact ⟨d, rfl⟩
      · cases h
    obtain ⟨d, rfl⟩ := hex
    refine ⟨_, rfl, ?_⟩
    rw [hds]
    refine .amounts hne ?_
    intro hs
    obtain ⟨d', h1, h2⟩ := C37_currency_partial env f es c ds hds hne hs
    rw [h] at h1
    cases h1
    exact h2
  · have hpl : ∀ v ∈ present f es, IsPlain v := fun v hv =>
      plain_of_not_currency (hnum v hv) (fun ⟨d, c, hvc⟩ => hcur ⟨d, c, hvc ▸ hv⟩)
    by_cases hfl : ∃ x, FieldValue.float x ∈ present f es
    · rw [sum_floats env f es hpl hfl] at h
      cases h
      exact ⟨_, rfl, .floats hpl hfl⟩
    · have hlist : ∀ vs : List FieldValue, (∀ v ∈ vs, IsPlain v) → (¬ ∃ x, FieldValue.float x ∈ vs) →
          ∃ ns : List Int, vs = ns.map .integer := by
        intro vs
        induction vs with
        | nil => intro _ _; exact ⟨[], rfl⟩
        | cons v vs ih =>
          intro hv hf
          obtain ⟨ns, rfl⟩ := ih (fun w hw => hv w (by simp [hw])) (fun ⟨x, hx⟩ => hf ⟨x, by simp [hx]⟩)
          have := hv v (by simp)
          cases v with
          | integer n => exact ⟨n :: ns, rfl⟩
          | float x => exact absurd ⟨x, by simp⟩ hf
          | _ => exact absurd this (by simp [IsPlain])
      obtain ⟨ns, hns⟩ := hlist _ hpl hfl
      by_cases hne : ns = []
      · subst hne
        rw [C37_empty env f es hns] at h
        cases h
        refine ⟨_, rfl, ?_⟩
        rw [hns]
        exact .empty
      · cases hw : env.overflowChecks with
        | false =>
          obtain ⟨n, h1, h2, h3, h4⟩ := C37_integers_wrapping env hw f es ns hns
          rw [h] at h1
          cases h1
          refine ⟨_, rfl, ?_⟩
          rw [hns]
          exact .wrapped hne hw h2 h3 h4
        | true =>
          have hex : r = .sum (.integer (total ns)) ∧ -(2 ^ 63) ≤ total ns ∧ total ns < 2 ^ 63 := by
            rw [executeSum_integers env f es ns hns hne] at h
            split at h
            · next n hn =>
              cases h
              have hr := sumI64_range hne hw hn
              rw [sumI64_checked hw hn, Int.zero_add] at hr
              rw [sumI64_checked hw hn, Int.zero_add]
              exact ⟨rfl, hr⟩
            · cases h
          obtain ⟨rfl, hr1, hr2⟩ := hex
          refine ⟨_, rfl, ?_⟩
          rw [hns]
          exact .exact hne hr1 hr2

theorem execute_average {env : Env} {f : FieldId} {es : List Entity} {r : AggregationResult}
    (h : Aggregation.execute env (.average (.regular f)) es = .ok r) :
    ∃ x, r = .average x ∧ AverageOf env (present f es) x := by
  have hf : ¬ ∃ e, Aggregation.execute env (.average (.regular f)) es = .error e := by
    rintro ⟨e, he⟩
    rw [h] at he
    cases he
  rw [(C39_failure env (.regular f) es).1] at hf
  have hne : present f es ≠ [] := fun hp => hf (.inr ⟨f, rfl, .inl hp⟩)
  have hnum : ∀ v ∈ present f es, IsNumber v := by
    intro v hv
    by_contra hn
    exact hf (.inr ⟨f, rfl, .inr ⟨v, hv, hn⟩⟩)
  have hlen : ((present f es).filterMap num?).length = (present f es).length := by
    generalize present f es = vs at hnum
    induction vs with
    | nil => rfl
    | cons v vs ih =>
      obtain ⟨x, hx⟩ := Option.isSome_iff_exists.1 (num?_isSome.2 (hnum v (by simp)))
      simp [hx, ih (fun w hw => hnum w (by simp [hw]))]
  have heq : Aggregation.execute env (.average (.regular f)) es =
      .ok (.average (((asFloats env (present f es)).foldl F64.add .negZero).divPos (((present f es).length : Nat) : Rat))) := by
    simp only [Aggregation.execute, executeAverage, requireRegularField, collect_ok f es hnum,
      nums_isEmpty hnum, asFloats_eq, hlen]
    have : (present f es).isEmpty = false := by cases hp : present f es <;> simp_all
    rw [this]
    rfl
  rw [h] at heq
  cases heq
  refine ⟨_, rfl, hne, hnum, rfl, ?_⟩
  intro ns hns hs
  have := C39_average_integers env f es ns hns (by rintro rfl; exact hne hns) hs
  rw [h] at this
  injection this with this
  injection this

theorem execute_median {env : Env} {f : FieldId} {es : List Entity} {r : AggregationResult}
    (h : Aggregation.execute env (.median (.regular f)) es = .ok r) :
    ∃ x, r = .median x ∧ MedianOf env (present f es) x := by
  have hf : ¬ ∃ e, Aggregation.execute env (.median (.regular f)) es = .error e := by
    rintro ⟨e, he⟩
    rw [h] at he
    cases he
  rw [(C39_failure env (.regular f) es).2] at hf
  have hne : present f es ≠ [] := fun hp => hf (.inr ⟨f, rfl, .inl hp⟩)
  have hnum : ∀ v ∈ present f es, IsNumber v := by
    intro v hv
    by_contra hn
    exact hf (.inr ⟨f, rfl, .inr ⟨v, hv, hn⟩⟩)
  rw [executeMedian_eq env f es hnum hne] at h
  refine ⟨_, (Except.ok.inj h).symm, hne, hnum, ?_, ?_, ?_⟩
  · intro hn
    obtain ⟨m, s, h1, h2⟩ := C39_median_middle env f es hnum hne hn
    rw [executeMedian_eq env f es hnum hne] at h1
    injection h1 with h1
    injection h1 with h1
    rw [h1]
    exact ⟨s, h2⟩
  · intro hodd hn
    obtain ⟨m, hm, h1, h2⟩ := C39_median_odd env f es hnum hn hodd
    rw [executeMedian_eq env f es hnum hne] at h1
    injection h1 with h1
    injection h1 with h1
    rw [h1]
    exact ⟨hm, h2⟩
  · intro heven hm
    obtain ⟨a, ha, b, hb, m, h1, h2⟩ := C39_median_even env f es hnum hne hm heven
    rw [executeMedian_eq env f es hnum hne] at h1
    injection h1 with h1
    injection h1 with h1
    rw [h1]
    exact ⟨a, ha, b, hb, h2⟩

theorem columnName_title (f : FieldRef) : Title f (columnName f) := by
  cases f with
  | regular f => exact .regular f
  | metadata m => cases m; exacts [.type, .id]

theorem cellOf_valueAt (e : Entity) (f : FieldRef) : cellOf e f = valueAt e f := by
  cases f with
  | regular f => rfl
  | metadata m => cases m <;> rfl

theorem agg_result {L : Lang} {a : QAgg} {es : List Entity} {r : AggregationResult}
    (h : (convertAgg L.cases a).execute L.env es = .ok r) : Result L es (some a) (.aggregation r) := by
  cases a with
  | select ns =>
    cases h
    have hcell : executeSelect (ns.map (convertField L.cases)) es =
        .select ((ns.map (convertField L.cases)).map columnName)
          (es.map fun e => (ns.map (convertField L.cases)).map (valueAt e)) := by
      simp [executeSelect, cellOf_valueAt]
    rw [hcell]
    refine .select ?_ ?_
    · induction ns with
      | nil => exact .nil
      | cons n ns ih => exact .cons (convertField_named _ _) (ih (by simp [executeSelect, cellOf_valueAt]))
    · generalize ns.map (convertField L.cases) = fs
      induction fs with
      | nil => exact .nil
      | cons f fs ih => exact .cons (columnName_title f) ih
  | count n =>
    cases h
    cases n with
    | none => exact .count
    | some n =>
      have := convertField_named L.cases n
      have hcount : executeCount (some (convertField L.cases n)) es =
          .count (es.countP fun e => (valueAt e (convertField L.cases n)).isSome) := by
        cases convertField L.cases n with
        | regular f => simp [executeCount, valueAt, List.countP_eq_length_filter]
        | metadata m => cases m <;> simp [executeCount, valueAt]
      simp only [Option.map_some, hcount]
      exact .countField this
  | sum n =>
    cases hc : convertField L.cases n with
    | metadata m => simp [convertAgg, hc, Aggregation.execute, executeSum, requireRegularField] at h
    | regular f =>
      have hn := convertField_named L.cases n
      simp only [convertAgg, hc] at h
      rw [hc] at hn
      obtain ⟨v, rfl, hv⟩ := execute_sum h
      exact .sum hn hv
  | average n =>
    cases hc : convertField L.cases n with
    | metadata m => simp [convertAgg, hc, Aggregation.execute, executeAverage, requireRegularField] at h
    | regular f =>
      have hn := convertField_named L.cases n
      simp only [convertAgg, hc] at h
      rw [hc] at hn
      obtain ⟨v, rfl, hv⟩ := execute_average h
      exact .average hn hv
  | median n =>
    cases hc : convertField L.cases n with
    | metadata m => simp [convertAgg, hc, Aggregation.execute, executeMedian, requireRegularField] at h
    | regular f =>
      have hn := convertField_named L.cases n
      simp only [convertAgg, hc] at h
      rw [hc] at hn
      obtain ⟨v, rfl, hv⟩ := execute_median h
      exact .median hn hv

/-! ## C94 -/

theorem accepted_build (ops : List GOp) : accepted (ops ++ [.build]) = accepted ops := by
  rw [← nodes_run, ← nodes_run, Graph.run, List.foldl_append]
  rfl

theorem from_starts {T : CaseTable} (ops : List GOp) (rt : Runtime) {sel : QSelector} {es : List Entity}
    (h : selectFrom rt (Graph.run (ops ++ [.build])) (match selectorType T sel with
      | some t => .type t
      | none => .all) = .ok es) : Starts T (accepted ops) sel es := by
  obtain ⟨hnd, hmem⟩ := C03_all_types (ops ++ [.build])
  have hp := rt.order_perm 0 (Graph.run (ops ++ [.build])).getAllEntityTypes
  rw [accepted_build] at hmem
  cases sel with
  | type n =>
    simp only [selectorType, selectFrom] at h
    split at h
    · next ht =>
      cases h
      rw [C03_list_by_type, accepted_build]
      exact .type ((hmem _).1 (hp.mem_iff.1 ht))
    · cases h
  | wildcard =>
    cases h
    have : (Graph.run (ops ++ [.build])).listByType =
        fun t => (accepted ops).filter fun e => e.entityType = t := by
      funext t
      rw [C03_list_by_type, accepted_build]
    simp only [this]
    exact .wildcard (hp.nodup_iff.2 hnd) (fun t => by rw [hp.mem_iff, hmem])

/-- C94: the result of a query text on a built graph is one that the query asks for, clause by clause. -/
theorem C94_means (L : Lang) (rt : Runtime) (ops : List GOp) {s : Str} {r : QueryResult}
    (h : runQuery L rt (Graph.run (ops ++ [.build])) s = .ok r) :
    ∃ q, qQuery s = some q ∧ Asks L (accepted ops) q r := by
  unfold runQuery parseQuery at h
  cases hq : qQuery s with
  | none => rw [hq] at h; cases h
  | some q =>
    refine ⟨q, rfl, ?_⟩
    rw [hq] at h
    simp only at h
    cases hr : collectResults (readOp L) q.operations with
    | error e => rw [hr] at h; cases h
    | ok ps =>
      rw [hr] at h
      simp only [convertQuery, Query.execute] at h
      split at h
      · cases h
      · next r' hr' =>
        cases h
        split at hr'
        · cases hr'
        · next start hs =>
          split at hr'
          · cases hr'
          · next es hes =>
            refine ⟨start, es, from_starts ops rt hs, ops_clauses ops rt hr (Bag.selectFrom (Inv.run _) rt _ hs) hes, ?_⟩
            cases ha : q.aggregation with
            | none =>
              rw [ha] at hr'
              cases hr'
              exact .entities
            | some a =>
              rw [ha] at hr'
              simp only [Option.map_some] at hr'
              split at hr'
              · next x hx => cases hr'; exact agg_result hx
              · cases hr'

/-- C94: every query that can be written gives, if anything, a result that it asks for. -/
theorem C94_written (L : Lang) (rt : Runtime) (ops : List GOp) {q : QTree} (hq : ValidTree q) {r : QueryResult}
    (h : runQuery L rt (Graph.run (ops ++ [.build])) (showQuery q) = .ok r) : Asks L (accepted ops) q r := by
  obtain ⟨q', h1, h2⟩ := C94_means L rt ops h
  rw [C73_reads_back hq] at h1
  cases h1
  exact h2

/-- C94: a query with both combinators in one clause is refused. -/
theorem C94_mixed (L : Lang) (rt : Runtime) (g : Graph) {q : QTree} (hq : ValidTree q) {c : QCond}
    {more : List (Combinator × QCond)} (ho : QOp.where c more ∈ q.operations) {m m' : Combinator × QCond}
    (hm : m ∈ more) (hm' : m' ∈ more) (hne : m.1 ≠ m'.1) :
    ∃ e, runQuery L rt g (showQuery q) = .error (.parse e) := by
  unfold runQuery parseQuery
  rw [C73_reads_back hq]
  cases hr : collectResults (readOp L) q.operations with
  | error e => exact ⟨e, by simp [hr]⟩
  | ok ps =>
    exfalso
    obtain ⟨p, hp⟩ := (collectResults_isOk _ _).1 ⟨ps, hr⟩ _ ho
    simp only [readOp] at hp
    split at hp
    · cases hp
    · split at hp
      · cases hp
      · next k hk =>
        have h1 := readCombinator_ok hk _ (List.mem_map_of_mem hm)
        have h2 := readCombinator_ok hk _ (List.mem_map_of_mem hm')
        exact hne (h1.trans h2.symm)

/-! ### Queries that succeed -/

theorem numeral_parse {s : Str} {n : Nat} (h : Numeral s n) : parseNat s = some n := by
  have key : (∀ c ∈ s, isDigit c = true) ∧ s ≠ [] ∧ digitsVal s = n := by
    induction h with
    | one h1 h2 =>
      refine ⟨?_, by simp, ?_⟩
      · intro c hc
        rw [List.mem_singleton.1 hc]
        exact (digit_iff _).2 ⟨_, h1, h2⟩
      · simp [digitsVal, digitVal, h1]
    | more _ h1 h2 ih =>
      refine ⟨?_, by simp, ?_⟩
      · intro c hc
        rcases List.mem_append.1 hc with hc | hc
        · exact ih.1 c hc
        · rw [List.mem_singleton.1 hc]
          exact (digit_iff _).2 ⟨_, h1, h2⟩
      · rw [digitsVal_append, ih.2.2]
        simp [digitsVal, digitVal, h1]
        omega
  unfold parseNat
  rw [if_pos, key.2.2]
  simp only [Bool.and_eq_true, Bool.not_eq_true', List.isEmpty_eq_false_iff, List.all_eq_true]
  exact ⟨key.2.1, key.1⟩

theorem readF64_ok {L : Lang} {t : Str} {x : F64} (h : L.parseF64 t = some x) : readF64 L t = .ok x := by
  simp [readF64, h]

mutual
theorem meant_reads {L : Lang} : ∀ {v : QValue} {w : FilterValue}, ValueMeant L v w → ∃ p, readQValue L v = .ok p
  | .string s, _, _ => ⟨_, rfl⟩
  | .number t, _, h => by
    have : ∃ x, L.parseF64 t = some x := by cases h <;> exact ⟨_, by assumption⟩
    obtain ⟨x, hx⟩ := this
    exact ⟨.number x, by simp [readQValue, readF64_ok hx]⟩
  | .boolean b, _, _ => ⟨_, rfl⟩
  | .currency t c, _, h => by
    cases h with
    | currency c hx => exact ⟨_, by simp only [readQValue, readF64_ok hx]; rfl⟩
  | .dateTime t, _, _ => ⟨_, rfl⟩
  | .reference t, _, _ => ⟨_, rfl⟩
  | .path s, _, _ => ⟨_, rfl⟩
  | .enum s, _, _ => ⟨_, rfl⟩
  | .list vs, _, h => by
    cases h with
    | list hv =>
      obtain ⟨ps, hps⟩ := meants_read hv
      exact ⟨.list ps, by simp [readQValue, hps]⟩
theorem meants_read {L : Lang} : ∀ {vs : List QValue} {ws : List FilterValue},
    List.Forall₂ (ValueMeant L) vs ws → ∃ ps, readQValues L vs = .ok ps
  | [], _, _ => ⟨_, rfl⟩
  | v :: vs, _, h => by
    cases h with
    | cons a b =>
      obtain ⟨p, hp⟩ := meant_reads a
      obtain ⟨ps, hps⟩ := meants_read b
      exact ⟨p :: ps, by simp [readQValues, hp, hps]⟩
end

/-- The clause can be carried out on entities out of `all`: its numbers fit, its combinators agree, its
comparisons have answers, and columns to order by are of one kind. -/
def Spec.Feasible (L : Lang) (all : List Entity) : QOp → Prop
  | .where c more => (∃ k, ∀ m ∈ more, m.1 = k) ∧ ∀ x ∈ c :: more.map (·.2), ∃ f w, FieldNamed L.cases x.field f ∧
      ValueMeant L x.value w ∧ ∀ e ∈ all, ∀ v, valueAt e f = some v → ∃ b, compareField L.env v x.op w = .ok b
  | .related none _ => True
  | .related (some t) _ => ∃ n, n < 2 ^ 64 ∧ Numeral t n
  | .order n _ => ∃ f, FieldNamed L.cases n f ∧ OneKind f all
  | .limit t => ∃ n, n < 2 ^ 64 ∧ Numeral t n

/-- The query ends without doing arithmetic. -/
def Spec.NoArithmetic : Option QAgg → Prop
  | none => True
  | some (.select _) => True
  | some (.count _) => True
  | some _ => False

theorem readUsize_ok {t : Str} {n : Nat} (h : Numeral t n) (hn : n < 2 ^ 64) : readUsize t = .ok n := by
  simp only [readUsize, numeral_parse h, if_pos hn]

theorem feasible_reads {L : Lang} {all : List Entity} {o : QOp} (h : Feasible L all o) : ∃ p, readOp L o = .ok p := by
  cases o with
  | «where» c more =>
    obtain ⟨⟨k, hk⟩, hc⟩ := h
    have h1 : ∀ x ∈ c :: more.map (·.2), IsOk (readCond L x) := by
      intro x hx
      obtain ⟨f, w, _, hw, _⟩ := hc x hx
      obtain ⟨p, hp⟩ := meant_reads hw
      exact ⟨⟨x.field, x.op, p⟩, by simp [readCond, hp]⟩
    obtain ⟨cs, hcs⟩ := (collectResults_isOk _ _).2 h1
    cases more with
    | nil => exact ⟨.where cs .and, by simp only [readOp, hcs]; rfl⟩
    | cons m more => exact ⟨.where cs k, C79_accepted L hk (by simp) hcs⟩
  | related d sel =>
    cases d with
    | none => exact ⟨_, rfl⟩
    | some t =>
      obtain ⟨n, hn, ht⟩ := h
      exact ⟨.related (some n) sel, by simp [readOp, readUsize_ok ht hn]⟩
  | order f d => exact ⟨_, rfl⟩
  | limit t =>
    obtain ⟨n, hn, ht⟩ := h
    exact ⟨.limit n, by simp [readOp, readUsize_ok ht hn]⟩

theorem oneKind_subset {f : FieldRef} {es all : List Entity} (h : OneKind f all) (hs : ∀ e ∈ es, e ∈ all) : OneKind f es := by
  obtain ⟨k, hk, h⟩ := h
  exact ⟨k, hk, fun e he => h e (hs e he)⟩

theorem feasible_applies {L : Lang} {all : List Entity} {o : QOp} (h : Feasible L all o) {p : ParsedOperation}
    (hp : readOp L o = .ok p) (rt : Runtime) (nonce : Nat) (g : Graph) {es : List Entity} (hs : ∀ e ∈ es, e ∈ all) :
    ∃ r, applyOperation L.env rt nonce g es (convertOp L.cases p) = .ok r := by
  cases o with
  | «where» c more =>
    obtain ⟨⟨k, hk⟩, hc⟩ := h
    simp only [readOp] at hp
    split at hp
    · cases hp
    · next cs hcs =>
      split at hp
      · cases hp
      · next k hk =>
        cases hp
        refine ⟨_, (filterEntities_ok _ _ _ _).2 ⟨?_, rfl⟩⟩
        intro e he
        have hall : ∀ d ∈ cs.map (convertCond L.cases), IsOk (d.matches L.env e) := by
          intro d hd
          obtain ⟨pc, hpc, rfl⟩ := List.mem_map.1 hd
          have hex : ∀ {xs : List QCond} {ys : List ParsedCondition},
              List.Forall₂ (fun a b => readCond L a = .ok b) xs ys → ∀ y ∈ ys, ∃ x ∈ xs, readCond L x = .ok y := by
            intro xs ys hxy
            induction hxy with
            | nil => intro y hy; cases hy
            | cons a _ ih =>
              intro y hy
              rcases List.mem_cons.1 hy with rfl | hy
              · exact ⟨_, by simp, a⟩
              · obtain ⟨x, hx, hx'⟩ := ih y hy
                exact ⟨x, by simp [hx], hx'⟩
          obtain ⟨x, hx, hxr⟩ := hex (collectResults_forall.1 hcs) pc hpc
          obtain ⟨f, w, hf, hw, hcmp⟩ := hc x hx
          unfold readCond at hxr
          split at hxr
          · next v hv =>
            cases hxr
            rw [matches_valueAt]
            simp only [convertCond]
            rw [fieldNamed_unique (convertField_named L.cases x.field) hf, meant_unique (value_meant hv) hw]
            cases hva : valueAt e f with
            | none => exact ⟨_, rfl⟩
            | some y => exact hcmp e (hs e he) y hva
          · cases hxr
        cases hm : CompoundCondition.matches L.env ⟨cs.map (convertCond L.cases), k⟩ e with
        | ok b => exact ⟨b, rfl⟩
        | error err =>
          exfalso
          obtain ⟨bs, hbs⟩ := (collectResults_isOk _ _).2 hall
          simp only [CompoundCondition.matches, hbs] at hm
          cases k <;> cases hm
  | related d sel =>
    cases d with
    | none => cases hp; exact ⟨_, rfl⟩
    | some t =>
      simp only [readOp] at hp
      split at hp
      · cases hp; exact ⟨_, rfl⟩
      · cases hp
  | order n d =>
    cases hp
    obtain ⟨f, hf, hk⟩ := h
    obtain ⟨r, hr, _⟩ := C29_stable_sort L.env rt f (d.getD .ascending) es (oneKind_subset hk hs)
    refine ⟨r, ?_⟩
    simp only [convertOp, applyOperation]
    rw [fieldNamed_unique (convertField_named L.cases n) hf]
    exact hr
  | limit t =>
    simp only [readOp] at hp
    split at hp
    · cases hp; exact ⟨_, rfl⟩
    · cases hp

theorem feasible_all {L : Lang} (rt : Runtime) {g : Graph} (hI : Inv g) : ∀ {os : List QOp} {ps : List ParsedOperation},
    List.Forall₂ (fun o p => readOp L o = .ok p) os ps → (∀ o ∈ os, Feasible L g.nodes o) →
    ∀ {es : List Entity}, Bag g es → ∃ r, applyOperations L.env rt g (ps.map (convertOp L.cases)) es = .ok r := by
  intro os ps h
  induction h with
  | nil => intro _ es _; exact ⟨es, rfl⟩
  | @cons o p os ps a _ ih =>
    intro hf es hb
    obtain ⟨r, hr⟩ := feasible_applies (hf _ (by simp)) a rt (ps.map (convertOp L.cases)).length g hb.1
    obtain ⟨r', hr'⟩ := ih (fun o ho => hf o (by simp [ho])) (Bag.applyOperation hI _ rt _ _ hb hr)
    exact ⟨r', by simp only [List.map_cons, applyOperations, hr]; exact hr'⟩

/-- C94: a query that starts from a type that exists, whose clauses can be carried out and that does not end
with arithmetic has a result. When arithmetic fails is the subject of C38 and C39. -/
theorem C94_succeeds (L : Lang) (rt : Runtime) (ops : List GOp) {q : QTree} (hq : ValidTree q)
    (hs : ∀ n, q.source = .type n → ∃ e ∈ accepted ops, e.entityType = L.cases.snake n)
    (ho : ∀ o ∈ q.operations, Feasible L (accepted ops) o) (ha : NoArithmetic q.aggregation) :
    ∃ r, runQuery L rt (Graph.run ops) (showQuery q) = .ok r := by
  have hI := Inv.run ops
  rw [← nodes_run] at ho
  obtain ⟨ps, hps⟩ := (collectResults_isOk (readOp L) q.operations).2 (fun o h => feasible_reads (ho o h))
  have hsel : ∃ es, selectFrom rt (Graph.run ops) (convertQuery L.cases ⟨q.source, ps, q.aggregation⟩).source = .ok es := by
    cases hsrc : q.source with
    | wildcard => exact ⟨_, rfl⟩
    | type n =>
      obtain ⟨hnd, hmem⟩ := C03_all_types ops
      have hp := rt.order_perm 0 (Graph.run ops).getAllEntityTypes
      have : L.cases.snake n ∈ rt.order 0 (Graph.run ops).getAllEntityTypes := by
        rw [hp.mem_iff, hmem]
        exact hs n hsrc
      exact ⟨_, by simp only [convertQuery, selectorType, selectFrom, if_pos this]; rfl⟩
  obtain ⟨start, hstart⟩ := hsel
  obtain ⟨es, hes⟩ := feasible_all rt hI (collectResults_forall.1 hps) ho (Bag.selectFrom hI rt _ hstart)
  unfold runQuery parseQuery
  rw [C73_reads_back hq]
  have hex : (convertQuery L.cases ⟨q.source, ps, q.aggregation⟩).operations = ps.map (convertOp L.cases) := rfl
  simp only [hps, Query.execute, hstart, hex, hes]
  simp only [convertQuery]
  cases hagg : q.aggregation with
  | none => exact ⟨_, rfl⟩
  | some a =>
    rw [hagg] at ha
    cases a with
    | select fs => exact ⟨_, rfl⟩
    | count f => exact ⟨_, rfl⟩
    | sum f => exact absurd ha id
    | average f => exact absurd ha id
    | median f => exact absurd ha id

/-! ### Example -/

/-- `from person | where name contains "o" or @id == "person.alice" | related | order name | limit 02 | select name` -/
def exMeaningTree : QTree where
  source := .type "person".toList
  operations :=
    [.where ⟨.regular "name".toList, .contains, .string "o".toList⟩
       [(.or, ⟨.metadata "id".toList, .equal, .string "person.alice".toList⟩)],
     .related none none, .order (.regular "name".toList) none, .limit "02".toList]
  aggregation := some (.select [.regular "name".toList])

theorem exMeaningTree_valid : ValidTree exMeaningTree := by
  refine ⟨⟨'p', "erson".toList, rfl, by decide, by decide⟩, ?_, ?_⟩
  · intro o ho
    simp only [exMeaningTree, List.mem_cons, List.not_mem_nil, or_false] at ho
    rcases ho with rfl | rfl | rfl | rfl
    · refine ⟨⟨⟨'n', "ame".toList, rfl, by decide, by decide⟩, ?_⟩, ?_⟩
      · exact ⟨by decide, .inl (by decide)⟩
      · intro m hm
        cases List.mem_singleton.1 hm
        exact ⟨⟨'i', "d".toList, rfl, by decide, by decide⟩, by decide, .inl (by decide)⟩
    · exact ⟨nofun, nofun⟩
    · exact ⟨'n', "ame".toList, rfl, by decide, by decide⟩
    · exact ⟨[], "02".toList, [], rfl, .inl rfl, ⟨by decide, by decide⟩, .inl rfl⟩
  · intro a ha
    cases ha
    refine ⟨by decide, ?_⟩
    intro f hf
    cases List.mem_singleton.1 hf
    exact ⟨'n', "ame".toList, rfl, by decide, by decide⟩

theorem exMeaning_field : exLang.cases.snake "name".toList = "name".toList := by decide

theorem exMeaningTree_feasible : ∀ o ∈ exMeaningTree.operations, Feasible exLang (accepted exOps) o := by
  have hname : FieldNamed exLang.cases (.regular "name".toList) (.regular "name".toList) := by
    have := FieldNamed.regular (T := exLang.cases) "name".toList
    rwa [exMeaning_field] at this
  have hacc : accepted exOps = [exAlice, exTask, exBob] := by decide
  rw [hacc]
  intro o ho
  simp only [exMeaningTree, List.mem_cons, List.not_mem_nil, or_false] at ho
  rcases ho with rfl | rfl | rfl | rfl
  · refine ⟨⟨.or, by simp⟩, ?_⟩
    intro x hx
    simp only [List.map_cons, List.map_nil, List.mem_cons, List.not_mem_nil, or_false] at hx
    rcases hx with rfl | rfl
    · refine ⟨_, _, hname, .string _, ?_⟩
      intro e he v hv
      simp only [List.mem_cons, List.not_mem_nil, or_false] at he
      rcases he with rfl | rfl | rfl
      · cases hv; exact ⟨_, rfl⟩
      · cases hv
      · cases hv; exact ⟨_, rfl⟩
    · refine ⟨_, _, .id, .string _, ?_⟩
      intro e he v hv
      cases hv
      exact ⟨_, rfl⟩
  · trivial
  · refine ⟨_, hname, .string, by decide, ?_⟩
    intro e he v hv
    simp only [List.mem_cons, List.not_mem_nil, or_false] at he
    rcases he with rfl | rfl | rfl
    · cases hv; rfl
    · cases hv
    · cases hv; rfl
  · exact ⟨2, by decide, .more (s := ['0']) (c := '2') (d := 2) (.one (c := '0') (d := 0) (by decide) (by decide)) (by decide) (by decide)⟩

example : ∃ r, runQuery exLang exRt (Graph.run (exOps ++ [.build])) (showQuery exMeaningTree) = .ok r ∧
    Asks exLang (accepted exOps) exMeaningTree r := by
  obtain ⟨r, hr⟩ := C94_succeeds exLang exRt (exOps ++ [.build]) exMeaningTree_valid
    (by
      intro n hn
      cases hn
      rw [accepted_build]
      exact ⟨exAlice, by decide, by decide⟩)
    (by rw [accepted_build]; exact exMeaningTree_feasible) trivial
  exact ⟨r, hr, C94_written exLang exRt exOps exMeaningTree_valid hr⟩

end Firm
