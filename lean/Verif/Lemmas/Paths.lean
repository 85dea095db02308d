import Verif.Lemmas.Mcp
import Verif.Props.RoundTrip

/-!
# Lemmas about paths
-/

namespace Firm
open Spec

/-! ## Cleaning keeps the place -/

theorem lexicalPlace_step (loc : List Str) (out : List PathComp) (c : PathComp) :
    lexicalPlace loc (cleanStep out c).reverse = stepFrom (lexicalPlace loc out.reverse) c := by
  have hs : ∀ (l : List PathComp) (x : PathComp), lexicalPlace loc (x :: l).reverse = stepFrom (lexicalPlace loc l.reverse) x := by
    intro l x
    rw [List.reverse_cons, lexicalPlace_append]
    rfl
  cases c with
  | rootDir => exact hs _ _
  | curDir => rfl
  | normal n => exact hs _ _
  | parentDir =>
    cases out with
    | nil => exact hs _ _
    | cons o out =>
      cases o with
      | rootDir =>
        show lexicalPlace loc (PathComp.rootDir :: out).reverse = _
        rw [hs]; rfl
      | normal n =>
        show lexicalPlace loc out.reverse = _
        rw [hs]; simp [stepFrom]
      | curDir => exact hs (.curDir :: out) .parentDir
      | parentDir => exact hs (.parentDir :: out) .parentDir

theorem lexicalPlace_clean (loc : List Str) (cs : List PathComp) :
    lexicalPlace loc (cleanComps cs) = lexicalPlace loc cs := by
  have key : ∀ (cs out : List PathComp), lexicalPlace loc (cs.foldl cleanStep out).reverse =
      lexicalPlace (lexicalPlace loc out.reverse) cs := by
    intro cs
    induction cs with
    | nil => intro out; rfl
    | cons c cs ih =>
      intro out
      rw [List.foldl_cons, ih, lexicalPlace_step]
      rfl
  exact key cs []

/-! ## The shape of a cleaned path -/

/-- The component is `..` or a name. -/
def Plain (c : PathComp) : Prop := c = .parentDir ∨ ∃ n, c = .normal n ∧ ValidName n

/-- A path without `.` that has the root at most in front. -/
def Tidy (cs : List PathComp) : Prop :=
  (∀ c ∈ cs, Plain c) ∨ ∃ r, cs = .rootDir :: r ∧ ∀ c ∈ r, Plain c

theorem plain_or_dot {s : Str} {c : PathComp} (h : c ∈ (splitChar '/' s).filterMap pieceComp) : Plain c := by
  obtain ⟨p, hp, hc⟩ := List.mem_filterMap.1 h
  cases c with
  | parentDir => exact .inl rfl
  | normal n =>
    obtain ⟨rfl, h1, h2, h3⟩ := pieceComp_normal hc
    exact .inr ⟨_, rfl, h1, splitChar_no _ hp, h2, h3⟩
  | rootDir => unfold pieceComp at hc; split at hc <;> [cases hc; (split at hc <;> [cases hc; (split at hc <;> cases hc)])]
  | curDir => unfold pieceComp at hc; split at hc <;> [cases hc; (split at hc <;> [cases hc; (split at hc <;> cases hc)])]

/-- The components of a path: possibly the root or `.`, then `..` and names. -/
theorem components_shape (s : Str) : ∃ pre r, pathComponents s = pre ++ r ∧ (∀ c ∈ r, Plain c) ∧
    (pre = [] ∨ pre = [.curDir] ∨ (pre = [.rootDir] ∧ s.head? = some '/')) := by
  obtain ⟨pre, h1, h2⟩ := pathComponents_shape s
  exact ⟨pre, _, h1, fun c hc => plain_or_dot hc, h2⟩

/-- A cleaned relative path: `..` and then names; the components so far are in reverse order. -/
theorem clean_form {cs : List PathComp} (h : ∀ c ∈ cs, Plain c ∨ c = .curDir) :
    ∀ (ns : List Str) (k : Nat), (∀ n ∈ ns, ValidName n) → ∃ (ns' : List Str) (k' : Nat), (∀ n ∈ ns', ValidName n) ∧
      cs.foldl cleanStep (ns.map .normal ++ List.replicate k .parentDir) =
        ns'.map .normal ++ List.replicate k' .parentDir := by
  induction cs with
  | nil => intro ns k hn; exact ⟨ns, k, hn, rfl⟩
  | cons c cs ih =>
    intro ns k hn
    rw [List.foldl_cons]
    have hc := h c (by simp)
    have ih := ih fun d hd => h d (List.mem_cons_of_mem c hd)
    cases c with
    | rootDir =>
      rcases hc with (hc | ⟨n, hc, _⟩) | hc <;> cases hc
    | curDir => exact ih ns k hn
    | normal n =>
      refine ih (n :: ns) k ?_
      intro m hm
      rcases List.mem_cons.1 hm with rfl | hm
      · rcases hc with (hc | ⟨x, hc, hx⟩) | hc
        · cases hc
        · cases hc; exact hx
        · cases hc
      · exact hn m hm
    | parentDir =>
      cases ns with
      | nil =>
        have : cleanStep (([] : List Str).map PathComp.normal ++ List.replicate k .parentDir) .parentDir =
            ([] : List Str).map PathComp.normal ++ List.replicate (k + 1) .parentDir := by
          cases k <;> rfl
        rw [this]
        exact ih [] (k + 1) hn
      | cons n ns => exact ih ns k fun m hm => hn m (List.mem_cons_of_mem _ hm)

/-- A cleaned absolute path: the root and then names. -/
theorem clean_form_root {cs : List PathComp} (h : ∀ c ∈ cs, Plain c ∨ c = .curDir) :
    ∀ ns : List Str, (∀ n ∈ ns, ValidName n) → ∃ ns' : List Str, (∀ n ∈ ns', ValidName n) ∧
      cs.foldl cleanStep (ns.map .normal ++ [.rootDir]) = ns'.map .normal ++ [.rootDir] := by
  induction cs with
  | nil => intro ns hn; exact ⟨ns, hn, rfl⟩
  | cons c cs ih =>
    intro ns hn
    rw [List.foldl_cons]
    have hc := h c (by simp)
    have ih := ih fun d hd => h d (List.mem_cons_of_mem c hd)
    cases c with
    | rootDir =>
      rcases hc with (hc | ⟨n, hc, _⟩) | hc <;> cases hc
    | curDir => exact ih ns hn
    | normal n =>
      refine ih (n :: ns) ?_
      intro m hm
      rcases List.mem_cons.1 hm with rfl | hm
      · rcases hc with (hc | ⟨x, hc, hx⟩) | hc
        · cases hc
        · cases hc; exact hx
        · cases hc
      · exact hn m hm
    | parentDir =>
      cases ns with
      | nil => exact ih [] hn
      | cons n ns => exact ih ns fun m hm => hn m (List.mem_cons_of_mem _ hm)

/-! ## Reading the text of components -/

theorem plain_text {c : PathComp} (h : Plain c) : '/' ∉ compText c ∧ compText c ≠ [] ∧ compText c ≠ ['.'] ∧
    pieceComp (compText c) = some c := by
  rcases h with rfl | ⟨n, rfl, hn⟩
  · exact ⟨by decide, by decide, by decide, by decide⟩
  · exact ⟨hn.noSlash, hn.nonempty, hn.notDot, pieceComp_valid hn⟩

theorem filterMap_plain {cs : List PathComp} (h : ∀ c ∈ cs, Plain c) : (cs.map compText).filterMap pieceComp = cs := by
  induction cs with
  | nil => rfl
  | cons c cs ih =>
    rw [List.map_cons, List.filterMap_cons, (plain_text (h c (by simp))).2.2.2,
      ih fun d hd => h d (List.mem_cons_of_mem _ hd)]

theorem split_plain {cs : List PathComp} (hne : cs ≠ []) (h : ∀ c ∈ cs, Plain c) :
    splitChar '/' (joinWith ['/'] (cs.map compText)) = cs.map compText := by
  refine splitChar_join (by simpa using hne) fun t ht => ?_
  obtain ⟨c, hc, rfl⟩ := List.mem_map.1 ht
  exact (plain_text (h c hc)).1

theorem components_root {cs : List PathComp} (h : ∀ c ∈ cs, Plain c) :
    pathComponents ('/' :: joinWith ['/'] (cs.map compText)) = .rootDir :: cs := by
  show PathComp.rootDir :: (splitChar '/' ('/' :: joinWith ['/'] (cs.map compText))).filterMap pieceComp = _
  rw [show '/' :: joinWith ['/'] (cs.map compText) = [] ++ '/' :: joinWith ['/'] (cs.map compText) from rfl,
    splitChar_two, List.filterMap_append]
  cases cs with
  | nil => decide
  | cons c cs =>
    rw [split_plain (by simp) h, filterMap_plain h]
    rfl

theorem components_dot {cs : List PathComp} (h : ∀ c ∈ cs, Plain c) :
    pathComponents ('.' :: '/' :: joinWith ['/'] (cs.map compText)) = .curDir :: cs := by
  have hs : splitChar '/' ('.' :: '/' :: joinWith ['/'] (cs.map compText)) =
      ['.'] :: splitChar '/' (joinWith ['/'] (cs.map compText)) := by
    rw [show '.' :: '/' :: joinWith ['/'] (cs.map compText) = ['.'] ++ '/' :: joinWith ['/'] (cs.map compText) from rfl,
      splitChar_two]
    rfl
  show (match splitChar '/' ('.' :: '/' :: joinWith ['/'] (cs.map compText)) with
    | first :: rest => (if first = ['.'] then [PathComp.curDir] else (pieceComp first).toList) ++ rest.filterMap pieceComp
    | [] => []) = _
  rw [hs]
  dsimp only
  rw [if_pos rfl]
  cases cs with
  | nil => decide
  | cons c cs =>
    rw [split_plain (by simp) h, filterMap_plain h]
    rfl

theorem components_plain {cs : List PathComp} (h : ∀ c ∈ cs, Plain c) :
    pathComponents (joinWith ['/'] (cs.map compText)) = cs := by
  cases cs with
  | nil => rfl
  | cons c cs =>
    have hs := split_plain (by simp) h
    obtain ⟨h1, h2, h3, h4⟩ := plain_text (h c (by simp))
    have hj : ∃ t, joinWith ['/'] ((c :: cs).map compText) = compText c ++ t := by
      cases cs with
      | nil => exact ⟨[], by simp [joinWith]⟩
      | cons d cs => exact ⟨'/' :: joinWith ['/'] ((d :: cs).map compText), by simp [joinWith]⟩
    obtain ⟨t, ht⟩ := hj
    obtain ⟨x, n', hx⟩ := List.exists_cons_of_ne_nil h2
    have hx' : x ≠ '/' := fun hc => h1 (by simp [hx, hc])
    rw [ht, hx] at hs ⊢
    unfold pathComponents
    split
    · next heq => cases heq
    · next heq => cases heq; exact absurd rfl hx'
    · rw [hs]
      simp only [List.map_cons]
      rw [if_neg h3, h4, filterMap_plain fun d hd => h d (List.mem_cons_of_mem _ hd)]
      rfl

theorem components_show {cs : List PathComp} (h : Tidy cs) : pathComponents (showComps cs) = cs := by
  rcases h with h | ⟨r, rfl, h⟩
  · cases cs with
    | nil => rfl
    | cons c cs =>
      have : showComps (c :: cs) = joinWith ['/'] ((c :: cs).map compText) := by
        rcases h c (by simp) with rfl | ⟨n, rfl, _⟩ <;> rfl
      rw [this, components_plain h]
  · exact components_root h

end Firm
