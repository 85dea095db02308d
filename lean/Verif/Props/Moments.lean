import Verif.Props.Tools
import Verif.Props.Literals

/-! # What date-time literals mean (C91) -/

namespace Firm
open Spec

/-! ## Characters of dates and times -/

/-- A character of a date, a time or an offset. -/
def Spec.DateChar (c : Char) : Prop := isWs c = true ∨ isDigit c = true ∨ c = '-' ∨ c = '+' ∨ c = ':'

theorem dateChar_not {x : Char} (h : x = 'a' ∨ x = 'U') : ¬ DateChar x := by
  rcases h with rfl | rfl <;> (unfold DateChar; decide)

theorem scanNum_chars {max n : Nat} {s r : Str} (h : scanNum max s = some (n, r)) :
    ∀ c ∈ s, DateChar c ∨ c ∈ r := by
  unfold scanNum at h
  dsimp only at h
  split at h
  · cases h
  · injection h with h
    injection h with _ h
    subst h
    intro c hc
    rw [← List.take_append_drop ((s.take max).takeWhile isDigit).length s] at hc
    rcases List.mem_append.1 hc with hc | hc
    · left
      have hp : (s.take max).takeWhile isDigit <+: s := (List.takeWhile_prefix _).trans (List.take_prefix _ _)
      rw [← List.prefix_iff_eq_take.1 hp] at hc
      exact .inr (.inl (by simpa using (List.all_takeWhile (p := isDigit) (l := s.take max) ▸ List.all_eq_true.1 List.all_takeWhile c hc)))
    · exact .inr hc

theorem trimStart_chars {s : Str} : ∀ c ∈ s, DateChar c ∨ c ∈ trimStart s := by
  intro c hc
  obtain ⟨w, h1, h2⟩ := trimStart_append s
  rw [h1] at hc
  rcases List.mem_append.1 hc with hc | hc
  · exact .inl (.inl (h2 c hc))
  · exact .inr hc

theorem scanItem_chars {max n : Nat} {s r : Str} (h : scanItem max s = some (n, r)) :
    ∀ c ∈ s, DateChar c ∨ c ∈ r := by
  intro c hc
  rcases trimStart_chars c hc with hc | hc
  · exact .inl hc
  · exact scanNum_chars h c hc

theorem scanYear_chars {y : Int} {s r : Str} (h : scanYear s = some (y, r)) : ∀ c ∈ s, DateChar c ∨ c ∈ r := by
  intro c hc
  rcases trimStart_chars c hc with hc | hc
  · exact .inl hc
  · unfold scanYear at h
    split at h
    · next r' ht =>
      rw [ht] at hc
      obtain ⟨p, hp, he⟩ := Option.map_eq_some_iff.1 h
      cases he
      rcases List.mem_cons.1 hc with rfl | hc
      · exact .inl (.inr (.inr (.inl rfl)))
      · exact scanNum_chars hp c hc
    · next r' ht =>
      rw [ht] at hc
      obtain ⟨p, hp, he⟩ := Option.map_eq_some_iff.1 h
      cases he
      rcases List.mem_cons.1 hc with rfl | hc
      · exact .inl (.inr (.inr (.inr (.inl rfl))))
      · exact scanNum_chars hp c hc
    · obtain ⟨p, hp, he⟩ := Option.map_eq_some_iff.1 h
      cases he
      exact scanNum_chars hp c hc

theorem scanChar_chars {d : Char} (hd : DateChar d) {s r : Str} (h : scanChar d s = some r) :
    ∀ c ∈ s, DateChar c ∨ c ∈ r := by
  cases s with
  | nil => cases h
  | cons x s =>
    rw [scanChar] at h
    by_cases hx : x = d
    · rw [if_pos hx] at h
      cases h; subst hx
      intro c hc
      rcases List.mem_cons.1 hc with rfl | hc
      · exact .inl hd
      · exact .inr hc
    · rw [if_neg hx] at h
      cases h

theorem civil_chars {s : Str} {day : Int} (h : parseCivil s = some day) : ∀ c ∈ s, DateChar c := by
  unfold parseCivil at h
  obtain ⟨y, h1, h⟩ := Option.bind_eq_some_iff.1 h
  obtain ⟨s2, h2, h⟩ := Option.bind_eq_some_iff.1 h
  obtain ⟨m, h3, h⟩ := Option.bind_eq_some_iff.1 h
  obtain ⟨s4, h4, h⟩ := Option.bind_eq_some_iff.1 h
  obtain ⟨d, h5, h⟩ := Option.bind_eq_some_iff.1 h
  dsimp only at h
  split at h
  · next he =>
    have dash : DateChar '-' := .inr (.inr (.inl rfl))
    intro c hc
    rcases scanYear_chars h1 c hc with hc | hc
    · exact hc
    rcases scanChar_chars dash h2 c hc with hc | hc
    · exact hc
    rcases scanItem_chars h3 c hc with hc | hc
    · exact hc
    rcases scanChar_chars dash h4 c hc with hc | hc
    · exact hc
    rcases scanItem_chars h5 c hc with hc | hc
    · exact hc
    rw [he.1] at hc
    cases hc
  · cases h

theorem time_chars {s : Str} {m : Nat} (h : parseTime s = some m) : ∀ c ∈ s, DateChar c := by
  unfold parseTime at h
  obtain ⟨y, h1, h⟩ := Option.bind_eq_some_iff.1 h
  obtain ⟨s2, h2, h⟩ := Option.bind_eq_some_iff.1 h
  obtain ⟨m, h3, h⟩ := Option.bind_eq_some_iff.1 h
  split at h
  · next he =>
    intro c hc
    rcases scanItem_chars h1 c hc with hc | hc
    · exact hc
    rcases scanChar_chars (.inr (.inr (.inr (.inr rfl)))) h2 c hc with hc | hc
    · exact hc
    rcases scanItem_chars h3 c hc with hc | hc
    · exact hc
    rw [he.1] at hc
    cases hc
  · cases h

theorem parseNat_chars {s : Str} {n : Nat} (h : parseNat s = some n) : ∀ c ∈ s, DateChar c := by
  unfold parseNat at h
  split at h
  · next hs =>
    intro c hc
    rw [Bool.and_eq_true] at hs
    exact .inr (.inl (List.all_eq_true.1 hs.2 c hc))
  · cases h

theorem i32_chars {s : Str} {n : Int} (h : parseI32 s = some n) : ∀ c ∈ s, DateChar c := by
  unfold parseI32 at h
  rw [Option.filter_eq_some_iff] at h
  have h := h.1
  unfold parseSigned at h
  split at h
  · obtain ⟨k, hk, _⟩ := Option.map_eq_some_iff.1 h
    intro c hc
    rcases List.mem_cons.1 hc with rfl | hc
    · exact .inr (.inr (.inl rfl))
    · exact parseNat_chars hk c hc
  · obtain ⟨k, hk, _⟩ := Option.map_eq_some_iff.1 h
    intro c hc
    rcases List.mem_cons.1 hc with rfl | hc
    · exact .inr (.inr (.inr (.inl rfl)))
    · exact parseNat_chars hk c hc
  · obtain ⟨k, hk, _⟩ := Option.map_eq_some_iff.1 h
    exact parseNat_chars hk

/-! ## Cutting at a mark -/

theorem first_mem {x : Char} {a b a' b' : Str} (h : x ∉ a) (he : a ++ x :: b = a' ++ x :: b') :
    a.length ≤ a'.length := by
  by_contra hlt
  have hlt : a'.length < a.length := by omega
  have h1 : (a ++ x :: b)[a'.length]? = some x := by rw [he]; simp
  rw [List.getElem?_append_left hlt] at h1
  exact h (List.mem_of_getElem? h1)

/-- A text with one mark is cut into two. -/
theorem split_once {u v a b : Str} {x : Char} (ha : x ∉ a) (hu : x ∉ u) (hb : x ∉ b) :
    splitStr (u ++ x :: v) (a ++ (u ++ x :: v) ++ b) = [a, b] := by
  have hne : u ++ x :: v ≠ [] := by simp
  refine cut_unique (splitStr_cut hne _) (.next ?_ (.last ?_))
  · intro a' b' he
    have := first_mem (x := x) (a := a ++ u) (b := v ++ b) (a' := a' ++ u) (b' := v ++ b') (by simp [ha, hu])
      (by simpa using he)
    simp only [List.length_append] at this
    omega
  · rintro ⟨p, q, rfl⟩
    exact hb (by simp)

theorem atMark_eq : atMark = [' '] ++ 'a' :: ['t', ' '] := rfl
theorem utcMark_eq : utcMark = [' '] ++ 'U' :: ['T', 'C'] := rfl

/-! ## C91 -/

/-- The moment of a local day and minute under an offset in seconds. -/
def Spec.moment (day : Int) (minutes : Nat) (offset : Int) : DateTime :=
  ⟨day * 86400 + minutes * 60 - offset, 0, offset⟩

/-- What a date-time literal means: a date, ` at `, a time and, if wanted, ` UTC` with a number of hours. -/
inductive Spec.MomentText (L : Lang) : Str → DateTime → Prop
  | here {a b : Str} {day : Int} {m : Nat} : parseCivil a = some day → parseTime b = some m →
      MomentText L (a ++ " at ".toList ++ b) (moment day m L.localOffset)
  | utc {a b : Str} {day : Int} {m : Nat} : parseCivil a = some day → parseTime b = some m →
      MomentText L (a ++ " at ".toList ++ (b ++ " UTC".toList)) (moment day m 0)
  | zone {a b z : Str} {day : Int} {m : Nat} {h : Int} : parseCivil a = some day → parseTime b = some m →
      parseI32 z = some h → -24 < h → h < 24 →
      MomentText L (a ++ " at ".toList ++ (b ++ " UTC".toList ++ z)) (moment day m (h * 3600))

theorem hoursToSeconds_small (L : Lang) {h : Int} (h1 : -(2 ^ 31) ≤ h * 3600) (h2 : h * 3600 < 2 ^ 31) :
    hoursToSeconds L h = some (h * 3600) := by
  unfold hoursToSeconds
  exact if_pos ⟨h1, h2⟩

theorem moment_zone {L : Lang} {b z : Str} (hb : ∀ c ∈ b, DateChar c) (hz : ∀ c ∈ z, DateChar c) :
    splitZone L (b ++ " UTC".toList ++ z) = (parseUtcOffset L z).map fun o => (b, o) := by
  have hU : ¬ DateChar 'U' := dateChar_not (.inr rfl)
  have hs : splitStr utcMark (b ++ utcMark ++ z) = [b, z] :=
    split_once (x := 'U') (u := [' ']) (v := ['T', 'C']) (fun hc => hU (hb _ hc)) (by decide) fun hc => hU (hz _ hc)
  unfold splitZone
  rw [show " UTC".toList = utcMark from rfl, if_pos (strContains_append _ _ _)]
  dsimp only
  rw [hs]
  rfl

theorem moment_split {L : Lang} {a r : Str} {day : Int} (ha : parseCivil a = some day) (hr : 'a' ∉ r) :
    parseDateTime L (a ++ " at ".toList ++ r) =
      match splitZone L r with
      | .error e => .error e
      | .ok (time, offset) =>
        match parseTime time with
        | none => .error (.invalidDateTime (a ++ " at ".toList ++ r))
        | some m => .ok (.dateTime (localDateTime day m offset)) := by
  have hA : ¬ DateChar 'a' := dateChar_not (.inl rfl)
  have hs : splitStr atMark (a ++ " at ".toList ++ r) = [a, r] :=
    split_once (x := 'a') (u := [' ']) (v := ['t', ' ']) (fun hc => hA (civil_chars ha _ hc)) (by decide) hr
  unfold parseDateTime
  rw [hs]
  dsimp only
  rw [ha]
  rfl

/-- C91: a text with a meaning is read as what it means. -/
theorem C91_accepted (L : Lang) {s : Str} {d : DateTime} (h : MomentText L s d) :
    parseDateTime L s = .ok (.dateTime d) := by
  have hA : ¬ DateChar 'a' := dateChar_not (.inl rfl)
  have hU : ¬ DateChar 'U' := dateChar_not (.inr rfl)
  cases h with
  | @here a b day m ha hb =>
    have hb' := time_chars hb
    rw [moment_split ha fun hc => hA (hb' _ hc)]
    have : strContains b utcMark = false := by
      cases hx : strContains b utcMark with
      | false => rfl
      | true =>
        obtain ⟨p, q, rfl⟩ := (strContains_iff _ _).1 hx
        exact absurd (hb' 'U' (by simp [utcMark])) hU
    unfold splitZone
    rw [this, if_neg (by decide)]
    dsimp only
    rw [hb]
    rfl
  | @utc a b day m ha hb =>
    have hb' := time_chars hb
    rw [moment_split ha fun hc => by
      rcases List.mem_append.1 hc with hc | hc
      · exact hA (hb' _ hc)
      · revert hc; decide]
    have := moment_zone (L := L) (z := []) hb' (by simp)
    rw [List.append_nil] at this
    rw [this, parseUtcOffset, if_pos rfl]
    dsimp only [Except.map]
    rw [hb]
    rfl
  | @zone a b z day m h ha hb hz h1 h2 =>
    have hb' := time_chars hb
    have hz' := i32_chars hz
    rw [moment_split ha fun hc => by
      rcases List.mem_append.1 hc with hc | hc
      · rcases List.mem_append.1 hc with hc | hc
        · exact hA (hb' _ hc)
        · revert hc; decide
      · exact hA (hz' _ hc)]
    have hne : z ≠ [] := by rintro rfl; cases hz
    rw [moment_zone hb' hz', parseUtcOffset, if_neg hne, hz]
    dsimp only
    rw [hoursToSeconds_small L (by omega) (by omega)]
    dsimp only
    rw [if_pos (by omega)]
    dsimp only [Except.map]
    rw [hb]
    rfl

/-- C91: a text that is read means what is read. Missing: texts with two zones (`C91_two_zones`) and zones
so far that the multiplication overflows (`C91_wraps`). -/
theorem C91_means_partial (L : Lang) {s : Str} {d : DateTime}
    (hone : ∀ x y z, s ≠ x ++ " UTC".toList ++ y ++ " UTC".toList ++ z)
    (hsmall : ∀ x z h, s = x ++ " UTC".toList ++ z → parseI32 z = some h → -(2 ^ 31) ≤ h * 3600 ∧ h * 3600 < 2 ^ 31)
    (h : parseDateTime L s = .ok (.dateTime d)) : MomentText L s d := by
  unfold parseDateTime at h
  split at h
  · next a r hs =>
    have hcut := splitStr_cut (old := atMark) (by decide) s
    rw [hs] at hcut
    have hjoin : s = a ++ atMark ++ r := cut_join hcut
    split at h
    · cases h
    · next day ha =>
      unfold splitZone at h
      split at h
      · cases h
      · next t o hz =>
        split at h
        · cases h
        · next m hm =>
          injection h with h
          injection h with h
          subst h
          split at hz
          · next hc =>
            have hcut2 := splitStr_cut (old := utcMark) (by decide) r
            dsimp only at hz
            generalize hq : splitStr utcMark r = parts at hz hcut2
            cases hcut2 with
            | last hno => exact absurd ((strContains_iff _ _).1 hc) hno
            | @next b z ps hmin hc2 =>
              have hz1 : ps = [z] := by
                cases hc2 with
                | last _ => rfl
                | @next z1 z2 ps _ _ =>
                  exact absurd (show s = (a ++ atMark ++ b) ++ utcMark ++ z1 ++ utcMark ++ z2 by
                    rw [hjoin]; simp) (hone _ _ _)
              subst hz1
              have hz : (parseUtcOffset L z).map (fun o => (b, o)) = .ok (t, o) := hz
              cases hp : parseUtcOffset L z with
              | error e => rw [hp] at hz; cases hz
              | ok off =>
                rw [hp] at hz
                have hz : (b, off) = (t, o) := by injection hz
                injection hz with e1 e2
                subst e1 e2
                unfold parseUtcOffset at hp
                split at hp
                · next hnil =>
                  subst hnil
                  have : off = 0 := by injection hp with hp; exact hp.symm
                  subst this
                  rw [hjoin]
                  have := MomentText.utc (L := L) ha hm
                  rw [List.append_nil]
                  exact this
                · split at hp
                  · cases hp
                  · next hours hh =>
                    obtain ⟨k1, k2⟩ := hsmall (a ++ atMark ++ b) z hours (by rw [hjoin]; simp [utcMark]) hh
                    rw [hoursToSeconds_small L k1 k2] at hp
                    dsimp only at hp
                    split at hp
                    · next hr =>
                      have : off = hours * 3600 := by injection hp with hp; exact hp.symm
                      subst this
                      rw [hjoin]
                      exact MomentText.zone (L := L) ha hm hh (by omega) (by omega)
                    · cases hp
          · have hz : (r, L.localOffset) = (t, o) := by injection hz
            injection hz with e1 e2
            subst e1 e2
            rw [hjoin]
            exact MomentText.here ha hm
  · cases h

/-- C91 is false for a text with two zones: the second is ignored. -/
theorem C91_two_zones (L : Lang) : ∃ d, parseDateTime L "2024-01-01 at 12:00 UTC+1 UTC+5".toList = .ok (.dateTime d) ∧
    ∀ d', ¬ MomentText L "2024-01-01 at 12:00 UTC+1 UTC+5".toList d' := by
  have hU : ¬ DateChar 'U' := dateChar_not (.inr rfl)
  have zero : ∀ t : Str, (∀ c ∈ t, DateChar c) → t.count 'U' = 0 := fun t ht => List.count_eq_zero.2 fun hc => hU (ht _ hc)
  refine ⟨moment 19723 720 3600, by rfl, ?_⟩
  intro d' h
  generalize hs : "2024-01-01 at 12:00 UTC+1 UTC+5".toList = s at h
  have h2 : s.count 'U' = 2 := by rw [← hs]; decide
  cases h with
  | here ha hb =>
    simp only [List.count_append, zero _ (civil_chars ha), zero _ (time_chars hb)] at h2
    revert h2; decide
  | utc ha hb =>
    simp only [List.count_append, zero _ (civil_chars ha), zero _ (time_chars hb)] at h2
    revert h2; decide
  | zone ha hb hz =>
    simp only [List.count_append, zero _ (civil_chars ha), zero _ (time_chars hb), zero _ (i32_chars hz)] at h2
    revert h2; decide

/-- C91 is false for zones of more than 596523 hours: with overflow checks the reader panics, without them
the literal is read with a zone of 31 minutes and 44 seconds. -/
theorem C91_wraps (L : Lang) :
    (L.env.overflowChecks = true → parseDateTime L "2024-01-01 at 12:00 UTC1193047".toList = .error .panic) ∧
    (L.env.overflowChecks = false → parseDateTime L "2024-01-01 at 12:00 UTC1193047".toList =
      .ok (.dateTime (moment 19723 720 1904))) := by
  have hs : parseDateTime L ("2024-01-01".toList ++ " at ".toList ++ ("12:00".toList ++ " UTC".toList ++ "1193047".toList)) = _ :=
    moment_split (show parseCivil "2024-01-01".toList = some 19723 by decide) (by decide)
  rw [moment_zone (time_chars (show parseTime "12:00".toList = some 720 by decide))
    (i32_chars (show parseI32 "1193047".toList = some 1193047 by decide)), parseUtcOffset,
    if_neg (by decide), show parseI32 "1193047".toList = some 1193047 by decide] at hs
  dsimp only [hoursToSeconds] at hs
  rw [if_neg (by decide)] at hs
  refine ⟨fun h => ?_, fun h => ?_⟩
  · rw [h] at hs
    exact hs
  · rw [h] at hs
    exact hs

example (L : Lang) : MomentText L "2024-02-29 at 09:30 UTC-3".toList (moment 19782 570 (-3 * 3600)) :=
  MomentText.zone (a := "2024-02-29".toList) (b := "09:30".toList) (z := "-3".toList) (by decide) (by decide) (by decide)
    (by decide) (by decide)
example : parseDateTime exLang "2024-02-29 at 09:30 UTC-3".toList = .ok (.dateTime ⟨1709209800, 0, -10800⟩) := by rfl

/-- A literal that meets the hypotheses of `C91_means_partial`. -/
example : (∀ x y z, "2024-02-29 at 09:30 UTC-3".toList ≠ x ++ " UTC".toList ++ y ++ " UTC".toList ++ z) ∧
    ∀ x z h, "2024-02-29 at 09:30 UTC-3".toList = x ++ " UTC".toList ++ z → parseI32 z = some h →
      -(2 ^ 31) ≤ h * 3600 ∧ h * 3600 < 2 ^ 31 := by
  have h1 : "2024-02-29 at 09:30 UTC-3".toList.count 'U' = 1 := by decide
  have h2 : " UTC".toList.count 'U' = 1 := by decide
  constructor
  · intro x y z h
    rw [h] at h1
    simp only [List.count_append, h2] at h1
    omega
  · intro x z h hs hz
    have h3 := h1
    rw [hs] at h3
    simp only [List.count_append, h2] at h3
    have hx : 'U' ∉ x := List.count_eq_zero.1 (by omega)
    have hz' : 'U' ∉ z := List.count_eq_zero.1 (by omega)
    have h4 : splitStr utcMark (x ++ " UTC".toList ++ z) = [x, z] :=
      split_once (x := 'U') (u := [' ']) (v := ['T', 'C']) hx (by decide) hz'
    rw [← hs, show splitStr utcMark "2024-02-29 at 09:30 UTC-3".toList = ["2024-02-29 at 09:30".toList, "-3".toList] by
      decide] at h4
    injection h4 with _ h4
    injection h4 with h4 _
    subst h4
    cases hz
    decide

end Firm
