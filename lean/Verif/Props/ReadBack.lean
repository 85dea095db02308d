import Verif.Props.UndoneAll
import Verif.Props.Concurrent

/-!
# C180: what the answers said is what can be read
-/

namespace Firm
open Spec

/-! ## The specification -/

/-- The requests with the answers they were given, one after the other. -/
def Spec.answered (H : Host) (order : Workspace → Workspace) : Server → List Request → List (Request × Reply)
  | _, [] => []
  | s, r :: rs => (r, (s.handle H order r).2) :: answered H order (s.handle H order r).1 rs

/-- What an accepted request makes of the text of its file; `none` stands for no text. -/
def Spec.Turns : Request → Option Str → Option Str → Prop
  | .write _ content _, _, u => u = some content
  | .delete _ _, _, u => u = none
  | .replace _ old new all _, t, u => ∃ text ps, t = some text ∧ old ≠ [] ∧ Cut old text ps ∧ 2 ≤ ps.length ∧
      (ps.length = 2 ∨ all = true) ∧ u = some (joinWith new ps)
  | .add _, t, u => ∃ more, u = some (t.getD [] ++ more)
  | .build, t, u => u = t

/-- What someone who sees the requests and the answers, and not the disk, knows of the text at a place: an answer other
than an error to a request for this place changes it, nothing else does. -/
inductive Spec.Tells (H : Host) (loc : List Str) : Option Str → List (Request × Reply) → Option Str → Prop where
  | start (t : Option Str) : Tells H loc t [] t
  | pass {t u : Option Str} {r : Request} {reply : Reply} {rest : List (Request × Reply)} :
      (r.target H ≠ some loc ∨ reply = .error) → Tells H loc t rest u → Tells H loc t ((r, reply) :: rest) u
  | turn {t u v : Option Str} {r : Request} {reply : Reply} {rest : List (Request × Reply)} :
      r.target H = some loc → reply ≠ .error → Turns r t u → Tells H loc u rest v → Tells H loc t ((r, reply) :: rest) v

/-- The text at a place of a disk. -/
def Spec.TextAt (d : FsTree) (loc : List Str) : Option Str → Prop
  | some text => Has d loc (.file (some text))
  | none => ∀ text, ¬ Has d loc (.file (some text))

/-- Every file is text. -/
def Spec.AllText (d : FsTree) : Prop := ∀ loc, ¬ Has d loc (.file none)

/-! ## One request -/

theorem has_one {d : FsTree} (hd : WellFormed d) {loc : List Str} {u v : FsTree} (hu : Has d loc u) (hv : Has d loc v) :
    u = v := by
  rw [has_iff_lookup hd] at hu hv
  rw [hu] at hv
  exact Option.some.inj hv

theorem apart_one {H : Host} (r : Request) : Apart H [r] := by
  intro i j r q a b hij hi hj _ _
  have h1 : i < 1 := by have := (List.getElem?_eq_some_iff.1 hi).1; simpa using this
  have h2 : j < 1 := by have := (List.getElem?_eq_some_iff.1 hj).1; simpa using this
  omega

theorem notDir_file (t : Option Str) : NotDir (.file t) := fun _ h => by cases h

/-- One request that is handled alone. -/
theorem handle_files {H : Host} (hws : ∀ n ∈ H.ws, ValidName n) (order : Workspace → Workspace) {s : Server}
    (hd : WellFormed s.disk) (hb : AllText s.disk) (r : Request) :
    WellFormed (s.handle H order r).1.disk ∧ AllText (s.handle H order r).1.disk ∧
    (∀ loc, r.target H = some loc → (s.handle H order r).2 ≠ .error → Took s.disk (s.handle H order r).1.disk loc r) ∧
    ∀ loc, (r.target H ≠ some loc ∨ (s.handle H order r).2 = .error) → ∀ u, NotDir u →
      (Has s.disk loc u ↔ Has (s.handle H order r).1.disk loc u) := by
  have hx := C58_alone H order r s
  obtain ⟨h1, h2⟩ := C58_many_partial H hws [r] (apart_one r) s hd hb _ _ rfl
  have hwf := run_wf hws (List.replicate 4 (0, rebuild H order)) (x := Busy.receive s [r]) hd
  rw [hx] at h1 h2 hwf
  have h1 : ∀ loc, r.target H = some loc → if (s.handle H order r).2 = .error then ∀ u, NotDir u →
      (Has s.disk loc u ↔ Has (s.handle H order r).1.disk loc u) else
      Took s.disk (s.handle H order r).1.disk loc r := fun loc hl => h1 0 r loc _ rfl hl
  have htook : ∀ loc, r.target H = some loc → (s.handle H order r).2 ≠ .error →
      Took s.disk (s.handle H order r).1.disk loc r := by
    intro loc hl hne
    have := h1 loc hl
    rwa [if_neg hne] at this
  have hsame : ∀ loc, (r.target H ≠ some loc ∨ (s.handle H order r).2 = .error) → ∀ u, NotDir u →
      (Has s.disk loc u ↔ Has (s.handle H order r).1.disk loc u) := by
    intro loc hor u hu
    by_cases hl : r.target H = some loc
    · rcases hor with hne | herr
      · exact absurd hl hne
      · have := h1 loc hl
        rw [if_pos herr] at this
        exact this u hu
    · exact h2 loc u (fun q hq => by rw [List.mem_singleton.1 hq]; exact hl) hu
  refine ⟨hwf, fun loc hn => ?_, htook, hsame⟩
  by_cases hor : r.target H ≠ some loc ∨ (s.handle H order r).2 = .error
  · exact hb loc ((hsame loc hor _ (notDir_file none)).2 hn)
  · have ht : r.target H = some loc := Classical.byContradiction fun h => hor (.inl h)
    have he : (s.handle H order r).2 ≠ .error := fun h => hor (.inr h)
    have hk := htook loc ht he
    cases r with
    | write p c f => have := has_one hwf hn hk; cases this
    | delete p f => exact hk _ (notDir_file none) hn
    | replace p o n a f =>
      obtain ⟨_, _, _, _, _, _, _, hk⟩ := hk
      have := has_one hwf hn hk; cases this
    | add p =>
      obtain ⟨_, _, _, hk⟩ := hk
      have := has_one hwf hn hk; cases this
    | build => cases ht

theorem textAt_same {d d' : FsTree} {loc : List Str} (h : ∀ u, NotDir u → (Has d loc u ↔ Has d' loc u)) {t : Option Str}
    (ht : TextAt d loc t) : TextAt d' loc t := by
  cases t with
  | some x => exact (h _ (notDir_file _)).1 ht
  | none => exact fun x hx => ht x ((h _ (notDir_file _)).2 hx)

theorem textAt_one {d : FsTree} (hd : WellFormed d) {loc : List Str} {t : Option Str} {x : Str} (ht : TextAt d loc t)
    (hx : Has d loc (.file (some x))) : t = some x := by
  cases t with
  | some y => have := has_one hd ht hx; cases this; rfl
  | none => exact absurd hx (ht x)

theorem took_turns {d d' : FsTree} (hd : WellFormed d) {loc : List Str} {r : Request} (hr : r ≠ .build)
    (h : Took d d' loc r) {t : Option Str} (ht : TextAt d loc t) : ∃ u, Turns r t u ∧ TextAt d' loc u := by
  cases r with
  | write p c f => exact ⟨some c, rfl, h⟩
  | delete p f => exact ⟨none, rfl, fun x hx => h _ (notDir_file _) hx⟩
  | replace p o n a f =>
    obtain ⟨text, ps, h1, h2, h3, h4, h5, h6⟩ := h
    exact ⟨_, ⟨text, ps, textAt_one hd ht h1, h2, h3, h4, h5, rfl⟩, h6⟩
  | add p =>
    obtain ⟨old, more, h1, h2⟩ := h
    refine ⟨some (old ++ more), ⟨more, ?_⟩, h2⟩
    rcases h1 with ⟨rfl, h1⟩ | h1
    · cases t with
      | none => rfl
      | some x => exact absurd ht (h1 _ (notDir_file _))
    · rw [textAt_one hd ht h1]; rfl
  | build => exact absurd rfl hr

/-! ## C180 -/

/-- C180: after any requests, processed one after the other, the text at every place is what the requests and their
answers tell. Missing for the full claim: files that are not text, which a refused `write_source` deletes
(`C160_binary`), and requests at the same time (`C58_lost`). -/
theorem C180_told_partial (H : Host) (hws : ∀ n ∈ H.ws, ValidName n) (order : Workspace → Workspace)
    (rs : List Request) (s : Server) (hd : WellFormed s.disk) (hb : AllText s.disk) (loc : List Str) (t : Option Str)
    (ht : TextAt s.disk loc t) :
    ∃ u, Tells H loc t (answered H order s rs) u ∧ TextAt (serveAll H order s rs).disk loc u := by
  induction rs generalizing s t with
  | nil => exact ⟨t, .start t, ht⟩
  | cons r rs ih =>
    obtain ⟨h1, h2, h3, h4⟩ := handle_files hws order hd hb r
    by_cases hor : r.target H ≠ some loc ∨ (s.handle H order r).2 = .error
    · obtain ⟨u, k1, k2⟩ := ih (s.handle H order r).1 h1 h2 t (textAt_same (h4 loc hor) ht)
      exact ⟨u, .pass hor k1, k2⟩
    · have hl : r.target H = some loc := Classical.byContradiction fun h => hor (.inl h)
      have he : (s.handle H order r).2 ≠ .error := fun h => hor (.inr h)
      obtain ⟨v, k1, k2⟩ := took_turns hd (fun h => by rw [h] at hl; cases hl) (h3 loc hl he) ht
      obtain ⟨u, k3, k4⟩ := ih (s.handle H order r).1 h1 h2 v k2
      exact ⟨u, .turn hl he k1 k3, k4⟩

/-- C180: as long as no entity is added to the file, the requests and the answers tell its text completely: there is only
one text they tell. -/
theorem C180_known {H : Host} {loc : List Str} {log : List (Request × Reply)}
    (hf : ∀ x ∈ log, x.1.target H = some loc → x.2 ≠ .error → Fixed x.1) {t u u' : Option Str}
    (h : Tells H loc t log u) (h' : Tells H loc t log u') : u = u' := by
  induction h with
  | start t => cases h'; rfl
  | pass h1 _ ih =>
    have hf' := fun x hx => hf x (List.mem_cons_of_mem _ hx)
    cases h' with
    | pass _ k2 => exact ih hf' k2
    | turn k1 k2 _ _ =>
      rcases h1 with h1 | h1
      · exact absurd k1 h1
      · exact absurd h1 k2
  | @turn t v w r reply rest h1 h2 h3 _ ih =>
    have hf' := fun x hx => hf x (List.mem_cons_of_mem _ hx)
    have hr := hf _ List.mem_cons_self h1 h2
    cases h' with
    | pass k1 _ =>
      rcases k1 with k1 | k1
      · exact absurd h1 k1
      · exact absurd k1 h2
    | turn _ _ k3 k4 =>
      refine ih hf' ?_
      have hv : ∀ v', Turns r t v' → v' = v := by
        intro v' k
        cases r with
        | write p c f => exact Eq.trans k (Eq.symm h3)
        | delete p f => exact Eq.trans k (Eq.symm h3)
        | replace p o n a f =>
          obtain ⟨text, ps, a1, _, a2, _, _, a3⟩ := h3
          obtain ⟨text', qs, b1, _, b2, _, _, b3⟩ := k
          rw [a1] at b1; cases b1
          rw [a3, b3, cut_unique a2 b2]
        | add p => exact hr.elim
        | build => cases h1
      rw [← hv _ k3]; exact k4

/-- No request for the place was accepted. -/
def Spec.Quiet (H : Host) (loc : List Str) (log : List (Request × Reply)) : Prop :=
  ∀ x ∈ log, x.1.target H = some loc → x.2 = .error

theorem quiet_tells {H : Host} {loc : List Str} {log : List (Request × Reply)} (hq : Quiet H loc log) {t u : Option Str}
    (h : Tells H loc t log u) : u = t := by
  induction h with
  | start t => rfl
  | pass _ _ ih => exact ih fun x hx => hq x (List.mem_cons_of_mem _ hx)
  | turn h1 h2 _ _ _ => exact absurd (hq _ List.mem_cons_self h1) h2

theorem tells_append {H : Host} {loc : List Str} {a b : List (Request × Reply)} {t v : Option Str}
    (h : Tells H loc t (a ++ b) v) : ∃ u, Tells H loc t a u ∧ Tells H loc u b v := by
  induction a generalizing t with
  | nil => exact ⟨t, .start t, h⟩
  | cons x a ih =>
    cases h with
    | pass h1 h2 =>
      obtain ⟨u, k1, k2⟩ := ih h2
      exact ⟨u, .pass h1 k1, k2⟩
    | turn h1 h2 h3 h4 =>
      obtain ⟨u, k1, k2⟩ := ih h4
      exact ⟨u, .turn h1 h2 h3 k1, k2⟩

/-- Some text is at the place, or none. -/
theorem textAt_exists (d : FsTree) (loc : List Str) : ∃ t, TextAt d loc t := by
  by_cases h : ∃ x, Has d loc (.file (some x))
  · obtain ⟨x, hx⟩ := h; exact ⟨some x, hx⟩
  · exact ⟨none, fun x hx => h ⟨x, hx⟩⟩

theorem last_turn {H : Host} {loc : List Str} {log before after : List (Request × Reply)} {r : Request} {reply : Reply}
    (hlog : log = before ++ (r, reply) :: after) (hr : r.target H = some loc) (hok : reply ≠ .error)
    (hq : Quiet H loc after) {t u : Option Str} (h : Tells H loc t log u) : ∃ v, Turns r v u := by
  subst hlog
  obtain ⟨v, _, h2⟩ := tells_append h
  cases h2 with
  | pass h3 _ =>
    rcases h3 with h3 | h3
    · exact absurd hr h3
    · exact absurd h3 hok
  | turn _ _ h3 h4 => exact ⟨v, by rw [quiet_tells hq h4]; exact h3⟩

theorem wf_serveAll {H : Host} (hws : ∀ n ∈ H.ws, ValidName n) (order : Workspace → Workspace) (rs : List Request)
    (s : Server) (hd : WellFormed s.disk) (hb : AllText s.disk) : WellFormed (serveAll H order s rs).disk := by
  induction rs generalizing s with
  | nil => exact hd
  | cons r rs ih =>
    obtain ⟨h1, h2, _⟩ := handle_files hws order hd hb r
    exact ih _ h1 h2

/-- C180: `read_source` gives the text of the last accepted `write_source` of the file, whatever was asked for other
files, and refused for this one, since. Missing: paths outside the workspace (`C180_outside`), files named `.firm`
(`C180_nameless`), and what `C180_told_partial` misses. -/
theorem C180_last_partial (H : Host) (hws : ∀ n ∈ H.ws, ValidName n) (order : Workspace → Workspace)
    (rs : List Request) (s : Server) (hd : WellFormed s.disk) (hb : AllText s.disk) {path path' content : Str}
    {force : Bool} {reply : Reply} {before after : List (Request × Reply)}
    (hlog : answered H order s rs = before ++ (.write path content force, reply) :: after) (hok : reply ≠ .error)
    (hq : Quiet H (placeFor H.ws path) after) (hp : DotlessPath path') (hsame : placeFor H.ws path' = placeFor H.ws path)
    (hf : ∃ dir n, placeFor H.ws path = dir ++ [n] ∧ FirmName n) :
    readSourceFile (serveAll H order s rs).disk H.ws path' = some content := by
  obtain ⟨t, ht⟩ := textAt_exists s.disk (placeFor H.ws path)
  obtain ⟨u, h1, h2⟩ := C180_told_partial H hws order rs s hd hb _ t ht
  obtain ⟨v, hv⟩ := last_turn hlog rfl hok hq h1
  have hv : u = some content := hv
  subst hv
  refine lookup_read hp ?_ ?_
  · rw [hsame]; exact (has_iff_lookup (wf_serveAll hws order rs s hd hb)).1 h2
  · obtain ⟨dir, n, h3, h4⟩ := hf
    rw [hsame, h3]
    unfold hasFirmExtension
    rw [List.getLast?_concat]
    exact isFirmFile_iff.2 h4

/-- C180: after an accepted `delete_source` nothing can be read at the place, by whatever path, until another request
for it is accepted. -/
theorem C180_deleted (H : Host) (hws : ∀ n ∈ H.ws, ValidName n) (order : Workspace → Workspace)
    (rs : List Request) (s : Server) (hd : WellFormed s.disk) (hb : AllText s.disk) {path path' : Str}
    {force : Bool} {reply : Reply} {before after : List (Request × Reply)}
    (hlog : answered H order s rs = before ++ (.delete path force, reply) :: after) (hok : reply ≠ .error)
    (hq : Quiet H (placeFor H.ws path) after) (hsame : placeFor H.ws path' = placeFor H.ws path) :
    readSourceFile (serveAll H order s rs).disk H.ws path' = none := by
  obtain ⟨t, ht⟩ := textAt_exists s.disk (placeFor H.ws path)
  obtain ⟨u, h1, h2⟩ := C180_told_partial H hws order rs s hd hb _ t ht
  obtain ⟨v, hv⟩ := last_turn hlog rfl hok hq h1
  have hv : u = none := hv
  subst hv
  cases hr : readSourceFile (serveAll H order s rs).disk H.ws path' with
  | none => rfl
  | some x =>
    have h3 := (read_lookup hr).1
    rw [hsame] at h3
    exact absurd ((has_iff_lookup (wf_serveAll hws order rs s hd hb)).2 h3) (h2 x)

/-- C180: what could be read before can be read unchanged as long as no request for the place is accepted. -/
theorem C180_untouched (H : Host) (hws : ∀ n ∈ H.ws, ValidName n) (order : Workspace → Workspace)
    (rs : List Request) (s : Server) (hd : WellFormed s.disk) (hb : AllText s.disk) {path text : Str} (hp : DotlessPath path)
    (hread : readSourceFile s.disk H.ws path = some text) (hq : Quiet H (placeFor H.ws path) (answered H order s rs)) :
    readSourceFile (serveAll H order s rs).disk H.ws path = some text := by
  obtain ⟨h1, h2⟩ := read_lookup hread
  obtain ⟨u, k1, k2⟩ := C180_told_partial H hws order rs s hd hb _ (some text) ((has_iff_lookup hd).2 h1)
  rw [quiet_tells hq k1] at k2
  exact lookup_read hp ((has_iff_lookup (wf_serveAll hws order rs s hd hb)).1 k2) h2

theorem added_tells {H : Host} {loc : List Str} {log : List (Request × Reply)}
    (ha : ∀ x ∈ log, x.1.target H = some loc → x.2 ≠ .error → ∃ p, x.1 = .add p) {t u : Option Str}
    (h : Tells H loc t log u) (text : Str) (ht : t = some text) : ∃ more, u = some (text ++ more) := by
  induction h generalizing text with
  | start t => exact ⟨[], by rw [ht, List.append_nil]⟩
  | pass _ _ ih => exact ih (fun x hx => ha x (List.mem_cons_of_mem _ hx)) text ht
  | turn h1 h2 h3 _ ih =>
    obtain ⟨p, hp⟩ := ha _ List.mem_cons_self h1 h2
    cases hp
    obtain ⟨more, hm⟩ := h3
    subst ht
    obtain ⟨more', hm'⟩ := ih (fun x hx => ha x (List.mem_cons_of_mem _ hx)) _ hm
    exact ⟨more ++ more', by rw [hm', ← List.append_assoc]; rfl⟩

/-- C180: if nothing but entities is added to a file, then what could be read before is the beginning of what can be read
afterwards. -/
theorem C180_grows (H : Host) (hws : ∀ n ∈ H.ws, ValidName n) (order : Workspace → Workspace)
    (rs : List Request) (s : Server) (hd : WellFormed s.disk) (hb : AllText s.disk) {path text : Str} (hp : DotlessPath path)
    (hread : readSourceFile s.disk H.ws path = some text)
    (ha : ∀ x ∈ answered H order s rs, x.1.target H = some (placeFor H.ws path) → x.2 ≠ .error → ∃ p, x.1 = .add p) :
    ∃ more, readSourceFile (serveAll H order s rs).disk H.ws path = some (text ++ more) := by
  obtain ⟨h1, h2⟩ := read_lookup hread
  obtain ⟨u, k1, k2⟩ := C180_told_partial H hws order rs s hd hb _ (some text) ((has_iff_lookup hd).2 h1)
  obtain ⟨more, hm⟩ := added_tells ha k1 text rfl
  subst hm
  exact ⟨more, lookup_read hp ((has_iff_lookup (wf_serveAll hws order rs s hd hb)).1 k2) h2⟩

/-! ## Where it is false -/

/-- C180 is false outside the workspace: a file is written there by its absolute path and cannot be read. -/
theorem C180_outside : let s := exUndoServer "a.firm" "old"
    let r := s.handle exUndoHost id (.write "/x.firm".toList "new".toList false)
    WellFormed s.disk ∧ r.2 = .success ∧ readSourceFile r.1.disk exUndoHost.ws "/x.firm".toList = none :=
  ⟨(exUndo_ok _ _ exUndo_a.1 exUndo_a.2).1, by decide +kernel, by decide +kernel⟩

/-- C180 is false of files named `.firm`: they are written, and cannot be read. -/
theorem C180_nameless : let s := exUndoServer "a.firm" "old"
    let r := s.handle exUndoHost id (.write "b/.firm".toList "new".toList false)
    WellFormed s.disk ∧ r.2 = .success ∧ DotlessPath "b/.firm".toList ∧
    readSourceFile r.1.disk exUndoHost.ws "b/.firm".toList = none :=
  ⟨(exUndo_ok _ _ exUndo_a.1 exUndo_a.2).1, by decide +kernel,
    ⟨by decide, fun h => absurd ((strContains_iff _ _).2 h) (by decide)⟩, by decide +kernel⟩

/-! ## Not vacuous -/

theorem exUndo_text : AllText (exUndoDisk "a.firm" "old") := by
  intro loc h
  cases h with
  | inside h1 h2 =>
    cases List.mem_singleton.1 h1
    cases h2 with
    | inside h3 h4 =>
      cases List.mem_singleton.1 h3
      cases h4

/-- A file is written, another one too, a text that is refused is sent for the first, and the other one is deleted. -/
def exReadBack : List Request :=
  [.write "b.firm".toList "one".toList false, .replace "a.firm".toList "l".toList "dd".toList false false,
    .write "./b.firm".toList "bad".toList true, .build, .delete "a.firm".toList false]

theorem exReadBack_answered : answered exUndoHost id (exUndoServer "a.firm" "old") exReadBack =
    [(.write "b.firm".toList "one".toList false, .success),
      (.replace "a.firm".toList "l".toList "dd".toList false false, .success),
      (.write "./b.firm".toList "bad".toList true, .error), (.build, .success),
      (.delete "a.firm".toList false, .success)] := by
  simp only [exReadBack, answered]
  refine congrArg₂ _ (Prod.ext rfl ?_) (congrArg₂ _ (Prod.ext rfl ?_) (congrArg₂ _ (Prod.ext rfl ?_)
    (congrArg₂ _ (Prod.ext rfl ?_) (congrArg₂ _ (Prod.ext rfl ?_) rfl)))) <;> decide +kernel

example : (∀ n ∈ exUndoHost.ws, ValidName n) ∧ WellFormed (exUndoServer "a.firm" "old").disk ∧
    AllText (exUndoServer "a.firm" "old").disk ∧
    (∃ after, answered exUndoHost id (exUndoServer "a.firm" "old") exReadBack =
      [] ++ (.write "b.firm".toList "one".toList false, .success) :: after ∧
      Quiet exUndoHost (placeFor exUndoHost.ws "b.firm".toList) after) ∧
    DotlessPath "./b.firm".toList ∧
    placeFor exUndoHost.ws "./b.firm".toList = placeFor exUndoHost.ws "b.firm".toList ∧
    (∃ dir n, placeFor exUndoHost.ws "b.firm".toList = dir ++ [n] ∧ FirmName n) := by
  refine ⟨fun n hn => ?_, (exUndo_ok _ _ exUndo_a.1 exUndo_a.2).1, exUndo_text, ⟨_, exReadBack_answered, ?_⟩,
    ⟨by decide, fun h => absurd ((strContains_iff _ _).2 h) (by decide)⟩, by decide +kernel,
    ["w".toList], "b.firm".toList, by decide +kernel, "b".toList, by decide, by decide⟩
  · rw [List.mem_singleton.1 hn]; exact ⟨by decide, by decide, by decide, by decide⟩
  · have hne : (Request.replace "a.firm".toList "l".toList "dd".toList false false).target exUndoHost ≠
        some (placeFor exUndoHost.ws "b.firm".toList) := by decide +kernel
    have hne' : (Request.delete "a.firm".toList false).target exUndoHost ≠
        some (placeFor exUndoHost.ws "b.firm".toList) := by decide +kernel
    intro x hx ht
    simp only [List.mem_cons, List.not_mem_nil, or_false] at hx
    rcases hx with rfl | rfl | rfl | rfl
    · exact absurd ht hne
    · rfl
    · cases ht
    · exact absurd ht hne'

/-- The last request of the five is an accepted deletion with nothing after it; and the text of `a.firm` stays while only
`b.firm` is written. -/
example : (∃ before, answered exUndoHost id (exUndoServer "a.firm" "old") exReadBack =
      before ++ (.delete "a.firm".toList false, .success) :: [] ∧ Quiet exUndoHost (placeFor exUndoHost.ws "a.firm".toList) []) ∧
    readSourceFile (exUndoServer "a.firm" "old").disk exUndoHost.ws "a.firm".toList = some "old".toList ∧
    Quiet exUndoHost (placeFor exUndoHost.ws "a.firm".toList) (answered exUndoHost id (exUndoServer "a.firm" "old")
      [.write "b.firm".toList "one".toList false]) ∧
    ∀ x ∈ answered exUndoHost id (exUndoServer "a.firm" "old") exReadBack,
      x.1.target exUndoHost = some (placeFor exUndoHost.ws "a.firm".toList) → x.2 ≠ .error → Fixed x.1 := by
  refine ⟨⟨[_, _, _, _], exReadBack_answered, fun x hx => by cases hx⟩, by decide +kernel, fun x hx ht => ?_,
    fun x hx _ _ => ?_⟩
  · rw [List.mem_singleton.1 hx] at ht
    exact absurd ht (by decide +kernel)
  · rw [exReadBack_answered] at hx
    simp only [List.mem_cons, List.not_mem_nil, or_false] at hx
    rcases hx with rfl | rfl | rfl | rfl | rfl <;> trivial

/-- And what is read at the end. -/
example : let t := serveAll exUndoHost id (exUndoServer "a.firm" "old") exReadBack
    readSourceFile t.disk exUndoHost.ws "./b.firm".toList = some "one".toList ∧
    readSourceFile t.disk exUndoHost.ws "a.firm".toList = none := by decide +kernel

/-- An entity is added to a file with the text `B`. -/
example : let rs : List Request := [.add ⟨"person".toList, "carol".toList, [("name".toList, .string "Carol".toList)],
      some "b.firm".toList, []⟩]
    readSourceFile exServer.disk exHost.ws "b.firm".toList = some "B".toList ∧
    (∀ x ∈ answered exHost id exServer rs, x.1.target exHost = some (placeFor exHost.ws "b.firm".toList) →
      x.2 ≠ .error → ∃ p, x.1 = .add p) ∧
    (readSourceFile (serveAll exHost id exServer rs).disk exHost.ws "b.firm".toList).map (·.take 8) =
      some "B\nperson".toList := by
  refine ⟨by decide +kernel, fun x hx _ _ => ?_, by decide +kernel⟩
  rw [List.mem_singleton.1 hx]
  exact ⟨_, rfl⟩

end Firm
