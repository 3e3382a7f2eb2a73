import Verif.Model.Schedule
import Verif.Spec.Schedule
import Verif.Lemmas.Split
import Verif.Lemmas.CheckOnly
import Verif.Lemmas.Format
/-
C88: schedule expressions.
-/
namespace CfnLint
open Spec

theorem pieces_iff {c : Char} {l : List Char} {ps : List (List Char)} : Pieces c l ps ↔ splitOn c l = ps := by
  constructor
  · intro h
    induction h with
    | last h => exact splitOn_plain h
    | more h _ ih => rw [splitOn_append _ h, ih]
  · intro h
    induction l generalizing ps with
    | nil => cases h; exact .last (by simp)
    | cons x xs ih =>
      rw [splitOn] at h
      by_cases hx : x = c
      · rw [if_pos hx] at h
        subst h hx
        exact .more (a := []) (by simp) (ih rfl)
      · rw [if_neg hx] at h
        obtain ⟨q, hq⟩ : ∃ q, splitOn c xs = q := ⟨_, rfl⟩
        have ih' := ih hq
        rw [hq] at h
        cases ih' with
        | last hn => subst h; exact .last (by simp [hn, Ne.symm hx])
        | @more a b ps' hn hp =>
          subst h
          exact .more (a := x :: a) (by simp [hn, Ne.symm hx]) hp

theorem idxOf_skip {a b : Char} {l m : List Char} (h : a ∉ l) (hb : b = a) : (l ++ b :: m).idxOf a = l.length := by
  subst hb
  induction l with
  | nil => simp
  | cons x xs ih =>
    simp only [List.mem_cons, not_or] at h
    rw [List.cons_append, List.idxOf_cons_ne _ (Ne.symm h.1), ih h.2]; rfl

/-- what stands between the parentheses -/
theorem insideParens_eq {head body tail : List Char} (h1 : '(' ∉ head) (h2 : ')' ∉ head) (hb : ')' ∉ body) :
    insideParens (head ++ '(' :: body ++ ')' :: tail) = body := by
  unfold insideParens
  have e1 : (head ++ '(' :: body ++ ')' :: tail).idxOf '(' = head.length := by
    rw [show head ++ '(' :: body ++ ')' :: tail = head ++ '(' :: (body ++ ')' :: tail) by simp]
    exact idxOf_skip h1 rfl
  have e2 : (head ++ '(' :: body ++ ')' :: tail).idxOf ')' = (head ++ '(' :: body).length :=
    idxOf_skip (by simp [h2, hb]) rfl
  rw [e1, e2, List.take_append_of_le_length (Nat.le_refl _), List.take_length]
  rw [show head ++ '(' :: body = (head ++ ['(']) ++ body by simp]
  rw [show head.length + 1 = (head ++ ['(']).length by simp, List.drop_left]

theorem first_close : ∀ {l : List Char}, ')' ∈ l → ∃ b t, l = b ++ ')' :: t ∧ ')' ∉ b := by
  intro l h
  obtain ⟨b, t, e, hb⟩ := List.eq_append_cons_of_mem h
  exact ⟨b, t, e, hb⟩

/-- a text that passes the tests on its beginning and its end -/
theorem enclosed_iff {head s : String} (h2 : ')' ∉ head.toList) :
    ((head ++ "(").toList.isPrefixOf s.toList && [')'].isSuffixOf s.toList) = true ↔ ∃ body, Enclosed head s body := by
  rw [Bool.and_eq_true, List.isPrefixOf_iff_prefix, List.isSuffixOf_iff_suffix]
  constructor
  · rintro ⟨⟨r, hr⟩, ⟨q, hq⟩⟩
    have hm : ')' ∈ r := by
      have : ')' ∈ s.toList := by rw [← hq]; simp
      rw [← hr] at this
      simpa [h2] using this
    obtain ⟨b, t, rfl, hb⟩ := first_close hm
    refine ⟨b, t, by rw [← hr]; simp, hb, ?_⟩
    rcases List.eq_nil_or_concat t with rfl | ⟨t', x, rfl⟩
    · exact .inl rfl
    · right
      refine ⟨t', ?_⟩
      rw [← hr] at hq
      have e : q ++ [')'] = ((head ++ "(").toList ++ (b ++ ')' :: t')) ++ [x] := by rw [hq]; simp
      have := (List.append_inj' e rfl).2
      simp at this
      simp [← this]
  · rintro ⟨body, tail, e, -, ht⟩
    refine ⟨⟨body ++ ')' :: tail, by rw [e]; simp⟩, ?_⟩
    rcases ht with rfl | ⟨t, rfl⟩
    · exact ⟨head.toList ++ '(' :: body, by rw [e]⟩
    · exact ⟨head.toList ++ '(' :: body ++ ')' :: t, by rw [e]; simp⟩

theorem enclosed_inside {head s : String} {body : List Char} (h1 : '(' ∉ head.toList) (h2 : ')' ∉ head.toList) (h : Enclosed head s body) :
    insideParens s.toList = body := by
  obtain ⟨tail, e, hb, -⟩ := h
  rw [e]
  exact insideParens_eq h1 h2 hb

theorem not_both_heads {s : String} {b b' : List Char} (h : Enclosed "rate" s b) (h' : Enclosed "cron" s b') : False := by
  obtain ⟨t, e, -⟩ := h
  obtain ⟨t', e', -⟩ := h'
  rw [e] at e'
  simp at e'

/-- what is wrong with the text, as the rule sees it -/
inductive SeenFault (digit : Char → Bool) (s : String) : ScheduleFault → Prop
  | form : (∀ b, ¬ Enclosed "rate" s b) → (∀ b, ¬ Enclosed "cron" s b) → SeenFault digit s .form
  | rateEmpty : Enclosed "rate" s [] → SeenFault digit s .rateEmpty
  | rateParts {b ps} : Enclosed "rate" s b → b ≠ [] → Pieces ' ' b ps → ps.length ≠ 2 → SeenFault digit s (.rateParts ps.length)
  | rateNumber {b v u} : Enclosed "rate" s b → Pieces ' ' b [v, u] → (v = [] ∨ ∃ c ∈ v, digit c = false) →
      SeenFault digit s .rateNumber
  | cronEmpty : Enclosed "cron" s [] → SeenFault digit s .cronEmpty
  | cronParts {b ps} : Enclosed "cron" s b → b ≠ [] → Pieces ' ' b ps → ps.length ≠ 6 → SeenFault digit s (.cronParts ps.length)
  | cronDays {b mi h dom mo dow y} : Enclosed "cron" s b → Pieces ' ' b [mi, h, dom, mo, dow, y] → dom ≠ ['?'] → dow ≠ ['?'] →
      SeenFault digit s .cronDays

theorem enclosed_unique {head s : String} {b b' : List Char} (h1 : '(' ∉ head.toList) (h2 : ')' ∉ head.toList) (h : Enclosed head s b)
    (h' : Enclosed head s b') : b = b' :=
  (enclosed_inside h1 h2 h).symm.trans (enclosed_inside h1 h2 h')

theorem digitsOnly_iff {digit : Char → Bool} {v : List Char} : digitsOnly digit v = false ↔ v = [] ∨ ∃ c ∈ v, digit c = false := by
  unfold digitsOnly
  cases v with
  | nil => simp
  | cons x xs =>
    rw [Bool.and_eq_false_iff]
    cases hx : digit x <;> simp [hx, List.all_eq_false]

theorem pieces_nil {c : Char} {ps : List (List Char)} (h : Pieces c [] ps) : ps = [[]] := (pieces_iff.1 h).symm

theorem checkRate_iff {digit : Char → Bool} {s : String} {b : List Char} (h : Enclosed "rate" s b) (f : ScheduleFault) :
    f ∈ checkRate digit s.toList ↔ SeenFault digit s f := by
  have hin := enclosed_inside (by decide) (by decide) h
  have hu : ∀ b', Enclosed "rate" s b' → b' = b := fun b' h' => enclosed_unique (by decide) (by decide) h' h
  unfold checkRate
  rw [hin]
  have hc : ∀ b', ¬ Enclosed "cron" s b' := fun b' h' => not_both_heads h h'
  by_cases hb : b = []
  · subst hb
    simp only [List.isEmpty_nil, if_true, List.mem_singleton]
    constructor
    · rintro rfl; exact .rateEmpty h
    · intro hf
      cases hf with
      | form h1 => exact absurd h (h1 _)
      | rateEmpty => rfl
      | rateParts he hne => exact absurd (hu _ he) hne
      | rateNumber he hp => rw [hu _ he] at hp; cases pieces_nil hp
      | cronEmpty he => exact absurd he (hc _)
      | cronParts he => exact absurd he (hc _)
      | cronDays he => exact absurd he (hc _)
  · rw [if_neg (by simpa using hb)]
    obtain ⟨ps, hps⟩ : ∃ ps, splitOn ' ' b = ps := ⟨_, rfl⟩
    have hP := pieces_iff.2 hps
    rw [hps]
    have key : ∀ {ps'}, Pieces ' ' b ps' → ps' = ps := fun h' => (pieces_iff.1 h').symm.trans hps
    rcases ps with _ | ⟨v, _ | ⟨u, _ | ⟨w, rest⟩⟩⟩
    · exact absurd hps (splitOn_ne_nil _ _)
    · simp only [List.mem_singleton]
      constructor
      · rintro rfl; exact .rateParts h hb hP (by simp)
      · intro hf
        cases hf with
        | form h1 => exact absurd h (h1 _)
        | rateEmpty he => exact absurd (hu _ he).symm hb
        | rateParts he _ hp => rw [hu _ he] at hp; rw [key hp]
        | rateNumber he hp => rw [hu _ he] at hp; cases key hp
        | cronEmpty he => exact absurd he (hc _)
        | cronParts he => exact absurd he (hc _)
        | cronDays he => exact absurd he (hc _)
    · dsimp only
      by_cases hd : digitsOnly digit v = true
      · rw [if_pos hd]
        refine ⟨fun hm => (by cases hm), fun hf => ?_⟩
        exfalso
        cases hf with
        | form h1 => exact absurd h (h1 _)
        | rateEmpty he => exact absurd (hu _ he).symm hb
        | rateParts he _ hp hl => rw [hu _ he] at hp; rw [key hp] at hl; exact hl rfl
        | rateNumber he hp hv =>
          rw [hu _ he] at hp
          cases key hp
          rw [digitsOnly_iff.2 hv] at hd
          cases hd
        | cronEmpty he => exact absurd he (hc _)
        | cronParts he => exact absurd he (hc _)
        | cronDays he => exact absurd he (hc _)
      · rw [if_neg hd, List.mem_singleton]
        constructor
        · rintro rfl; exact .rateNumber h hP (digitsOnly_iff.1 (by simpa using hd))
        · intro hf
          cases hf with
          | form h1 => exact absurd h (h1 _)
          | rateEmpty he => exact absurd (hu _ he).symm hb
          | rateParts he _ hp hl => rw [hu _ he] at hp; rw [key hp] at hl; exact absurd rfl hl
          | rateNumber he hp hv => rfl
          | cronEmpty he => exact absurd he (hc _)
          | cronParts he => exact absurd he (hc _)
          | cronDays he => exact absurd he (hc _)
    · simp only [List.mem_singleton]
      constructor
      · rintro rfl; exact .rateParts h hb hP (by simp)
      · intro hf
        cases hf with
        | form h1 => exact absurd h (h1 _)
        | rateEmpty he => exact absurd (hu _ he).symm hb
        | rateParts he _ hp => rw [hu _ he] at hp; rw [key hp]
        | rateNumber he hp => rw [hu _ he] at hp; cases key hp
        | cronEmpty he => exact absurd he (hc _)
        | cronParts he => exact absurd he (hc _)
        | cronDays he => exact absurd he (hc _)

theorem six_or_not {α : Type} (l : List α) : (∃ a b c d e f, l = [a, b, c, d, e, f]) ∨ l.length ≠ 6 := by
  rcases l with _ | ⟨a, _ | ⟨b, _ | ⟨c, _ | ⟨d, _ | ⟨e, _ | ⟨f, _ | ⟨g, l⟩⟩⟩⟩⟩⟩⟩ <;> simp

theorem checkCron_iff {digit : Char → Bool} {s : String} {b : List Char} (h : Enclosed "cron" s b) (f : ScheduleFault) :
    f ∈ checkCron s.toList ↔ SeenFault digit s f := by
  have hin := enclosed_inside (by decide) (by decide) h
  have hu : ∀ b', Enclosed "cron" s b' → b' = b := fun b' h' => enclosed_unique (by decide) (by decide) h' h
  unfold checkCron
  rw [hin]
  have hc : ∀ b', ¬ Enclosed "rate" s b' := fun b' h' => not_both_heads h' h
  by_cases hb : b = []
  · subst hb
    simp only [List.isEmpty_nil, if_true, List.mem_singleton]
    constructor
    · rintro rfl; exact .cronEmpty h
    · intro hf
      cases hf with
      | form _ h1 => exact absurd h (h1 _)
      | cronEmpty => rfl
      | cronParts he hne => exact absurd (hu _ he) hne
      | cronDays he hp => rw [hu _ he] at hp; cases pieces_nil hp
      | rateEmpty he => exact absurd he (hc _)
      | rateParts he => exact absurd he (hc _)
      | rateNumber he => exact absurd he (hc _)
  · rw [if_neg (by simpa using hb)]
    obtain ⟨ps, hps⟩ : ∃ ps, splitOn ' ' b = ps := ⟨_, rfl⟩
    have hP := pieces_iff.2 hps
    rw [hps]
    have key : ∀ {ps'}, Pieces ' ' b ps' → ps' = ps := fun h' => (pieces_iff.1 h').symm.trans hps
    rcases six_or_not ps with ⟨mi, hh, dom, mo, dow, y, rfl⟩ | hne
    · dsimp only
      by_cases hd : dom ≠ ['?'] ∧ dow ≠ ['?']
      · rw [if_pos hd, List.mem_singleton]
        constructor
        · rintro rfl; exact .cronDays h hP hd.1 hd.2
        · intro hf
          cases hf with
          | form _ h1 => exact absurd h (h1 _)
          | cronEmpty he => exact absurd (hu _ he).symm hb
          | cronParts he _ hp hl => rw [hu _ he] at hp; rw [key hp] at hl; exact absurd rfl hl
          | cronDays => rfl
          | rateEmpty he => exact absurd he (hc _)
          | rateParts he => exact absurd he (hc _)
          | rateNumber he => exact absurd he (hc _)
      · rw [if_neg hd]
        refine ⟨fun hm => (by cases hm), fun hf => ?_⟩
        exfalso
        cases hf with
        | form _ h1 => exact absurd h (h1 _)
        | cronEmpty he => exact absurd (hu _ he).symm hb
        | cronParts he _ hp hl => rw [hu _ he] at hp; rw [key hp] at hl; exact hl rfl
        | cronDays he hp h1 h2 =>
          rw [hu _ he] at hp
          cases key hp
          exact hd ⟨h1, h2⟩
        | rateEmpty he => exact absurd he (hc _)
        | rateParts he => exact absurd he (hc _)
        | rateNumber he => exact absurd he (hc _)
    · split
      · exact absurd rfl hne
      · rw [List.mem_singleton]
        constructor
        · rintro rfl; exact .cronParts h hb hP hne
        · intro hf
          cases hf with
          | form _ h1 => exact absurd h (h1 _)
          | cronEmpty he => exact absurd (hu _ he).symm hb
          | cronParts he _ hp hl => rw [hu _ he] at hp; rw [key hp]
          | cronDays he hp => rw [hu _ he] at hp; rw [← key hp] at hne; exact absurd rfl hne
          | rateEmpty he => exact absurd he (hc _)
          | rateParts he => exact absurd he (hc _)
          | rateNumber he => exact absurd he (hc _)

/-- **C88**: what is reported for a text -/
theorem C88_exact (digit : Char → Bool) (s : String) (f : ScheduleFault) : f ∈ scheduleText digit s ↔ SeenFault digit s f := by
  have hr := enclosed_iff (head := "rate") (s := s) (by decide)
  have hc := enclosed_iff (head := "cron") (s := s) (by decide)
  unfold scheduleText
  rw [show "rate" ++ "(" = "rate(" from rfl] at hr
  rw [show "cron" ++ "(" = "cron(" from rfl] at hc
  by_cases h1 : ("rate(".toList.isPrefixOf s.toList && [')'].isSuffixOf s.toList) = true
  · rw [if_pos h1]
    obtain ⟨b, hb⟩ := hr.1 h1
    exact checkRate_iff hb f
  · rw [if_neg h1]
    by_cases h2 : ("cron(".toList.isPrefixOf s.toList && [')'].isSuffixOf s.toList) = true
    · rw [if_pos h2]
      obtain ⟨b, hb⟩ := hc.1 h2
      exact checkCron_iff hb f
    · rw [if_neg h2, List.mem_singleton]
      have n1 : ∀ b, ¬ Enclosed "rate" s b := fun b hb => h1 (hr.2 ⟨b, hb⟩)
      have n2 : ∀ b, ¬ Enclosed "cron" s b := fun b hb => h2 (hc.2 ⟨b, hb⟩)
      constructor
      · rintro rfl; exact .form n1 n2
      · intro hf
        cases hf with
        | form => rfl
        | rateEmpty he => exact absurd he (n1 _)
        | rateParts he => exact absurd he (n1 _)
        | rateNumber he => exact absurd he (n1 _)
        | cronEmpty he => exact absurd he (n2 _)
        | cronParts he => exact absurd he (n2 _)
        | cronDays he => exact absurd he (n2 _)

/-- the characters `0` to `9` count as digits -/
def KnowsDigits (digit : Char → Bool) : Prop := ∀ c : Char, '0' ≤ c → c ≤ '9' → digit c = true

/-- **C88**: a text is reported exactly if it is no schedule expression -/
def C88_statement : Prop :=
  ∀ digit, KnowsDigits digit → ∀ s, scheduleText digit s = [] ↔ ScheduleExpression s

theorem no_fault {digit : Char → Bool} {s : String} (h : ∀ f, ¬ SeenFault digit s f) : scheduleText digit s = [] := by
  rw [List.eq_nil_iff_forall_not_mem]
  exact fun f hf => h f ((C88_exact digit s f).1 hf)

theorem unit_plain {v u : List Char} (h : UnitOf v u) : ' ' ∉ u ∧ ')' ∉ u := by
  rcases h with ⟨-, rfl | rfl | rfl⟩ | ⟨-, rfl | rfl | rfl⟩ <;> decide

theorem digits_plain {v : List Char} (h : DecimalNumber v) : ' ' ∉ v ∧ ')' ∉ v :=
  ⟨fun hm => absurd (h.2 _ hm).1 (by decide), fun hm => absurd (h.2 _ hm).1 (by decide)⟩

/-- **C88**: no schedule expression is reported -/
theorem C88_sound {digit : Char → Bool} (hd : KnowsDigits digit) {s : String} (h : ScheduleExpression s) : scheduleText digit s = [] := by
  refine no_fault fun f hf => ?_
  rcases h with ⟨v, u, e, hv, hu⟩ | ⟨mi, h, dom, mo, dow, y, e, hfs, hdays⟩
  · have he : Enclosed "rate" s (v ++ ' ' :: u) :=
      ⟨[], by rw [e]; simp, by simp [(unit_plain hu).2, (digits_plain hv).2], .inl rfl⟩
    have hp : Pieces ' ' (v ++ ' ' :: u) [v, u] := .more (digits_plain hv).1 (.last (unit_plain hu).1)
    have hps := pieces_iff.1 hp
    have hm := (checkRate_iff he f).2 hf
    unfold checkRate at hm
    rw [enclosed_inside (by decide) (by decide) he, if_neg (by simp), hps] at hm
    dsimp only at hm
    rw [if_pos] at hm
    · cases hm
    · rw [← Bool.not_eq_false, digitsOnly_iff]
      rintro (rfl | ⟨c, hc, hc'⟩)
      · exact hv.1 rfl
      · rw [hd c (hv.2 c hc).1 (hv.2 c hc).2] at hc'; cases hc'
  · simp only [List.mem_cons, List.not_mem_nil, or_false, forall_eq_or_imp, forall_eq] at hfs
    obtain ⟨h1, h2, h3, h4, h5, h6⟩ := hfs
    have he : Enclosed "cron" s (mi ++ ' ' :: (h ++ ' ' :: (dom ++ ' ' :: (mo ++ ' ' :: (dow ++ ' ' :: y))))) :=
      ⟨[], by rw [e]; simp, by simp [h1.2.2, h2.2.2, h3.2.2, h4.2.2, h5.2.2, h6.2.2], .inl rfl⟩
    have hp : Pieces ' ' (mi ++ ' ' :: (h ++ ' ' :: (dom ++ ' ' :: (mo ++ ' ' :: (dow ++ ' ' :: y))))) [mi, h, dom, mo, dow, y] :=
      .more h1.2.1 (.more h2.2.1 (.more h3.2.1 (.more h4.2.1 (.more h5.2.1 (.last h6.2.1)))))
    have hps := pieces_iff.1 hp
    have hm := (checkCron_iff he f).2 hf
    unfold checkCron at hm
    rw [enclosed_inside (by decide) (by decide) he, if_neg (by simp), hps] at hm
    dsimp only at hm
    rw [if_neg] at hm
    · cases hm
    · rintro ⟨hx, hy⟩
      exact hx (hdays.2 hy)

/-- **C88**: what an unreported text looks like. Missing for the full claim: the unit, fields that are empty, more than one day left open, and
    text after the first closing parenthesis. -/
theorem C88_complete_partial {digit : Char → Bool} {s : String} (h : scheduleText digit s = []) :
    (∃ b v u, Enclosed "rate" s b ∧ Pieces ' ' b [v, u] ∧ v ≠ [] ∧ ∀ c ∈ v, digit c = true) ∨
    (∃ b mi h dom mo dow y, Enclosed "cron" s b ∧ Pieces ' ' b [mi, h, dom, mo, dow, y] ∧ (dom = ['?'] ∨ dow = ['?'])) := by
  have hno : ∀ f, ¬ SeenFault digit s f := fun f hf => by
    have := (C88_exact digit s f).2 hf
    rw [h] at this
    cases this
  by_cases hr : ∃ b, Enclosed "rate" s b
  · left
    obtain ⟨b, hb⟩ := hr
    by_cases hb0 : b = []
    · subst hb0; exact absurd (.rateEmpty hb) (hno _)
    obtain ⟨ps, hps⟩ : ∃ ps, Pieces ' ' b ps := ⟨_, pieces_iff.2 rfl⟩
    by_cases hl : ps.length = 2
    · match ps, hl with
      | [v, u], _ =>
        refine ⟨b, v, u, hb, hps, fun hv => hno _ (.rateNumber hb hps (.inl hv)), fun c hc => ?_⟩
        by_contra hd
        exact hno _ (.rateNumber hb hps (.inr ⟨c, hc, by simpa using hd⟩))
    · exact absurd (.rateParts hb hb0 hps hl) (hno _)
  · by_cases hc : ∃ b, Enclosed "cron" s b
    · right
      obtain ⟨b, hb⟩ := hc
      by_cases hb0 : b = []
      · subst hb0; exact absurd (.cronEmpty hb) (hno _)
      obtain ⟨ps, hps⟩ : ∃ ps, Pieces ' ' b ps := ⟨_, pieces_iff.2 rfl⟩
      rcases six_or_not ps with ⟨mi, hh, dom, mo, dow, y, rfl⟩ | hl
      · refine ⟨b, mi, hh, dom, mo, dow, y, hb, hps, ?_⟩
        by_cases h1 : dom = ['?']
        · exact .inl h1
        · by_cases h2 : dow = ['?']
          · exact .inr h2
          · exact absurd (.cronDays hb hps h1 h2) (hno _)
      · exact absurd (.cronParts hb hb0 hps hl) (hno _)
    · exact absurd (.form (fun b hb => hr ⟨b, hb⟩) (fun b hb => hc ⟨b, hb⟩)) (hno _)

/-- **C88**: any text may stand for the unit -/
theorem C88_unit_missed {digit : Char → Bool} (hd : KnowsDigits digit) {v u : String} (hv : DecimalNumber v.toList)
    (h1 : ' ' ∉ u.toList) (h2 : ')' ∉ u.toList) : scheduleText digit ("rate(" ++ v ++ " " ++ u ++ ")") = [] := by
  refine no_fault fun f hf => ?_
  have he : Enclosed "rate" ("rate(" ++ v ++ " " ++ u ++ ")") (v.toList ++ ' ' :: u.toList) :=
    ⟨[], by simp, by simp [h2, (digits_plain hv).2], .inl rfl⟩
  have hps := pieces_iff.1 (show Pieces ' ' (v.toList ++ ' ' :: u.toList) [v.toList, u.toList] from .more (digits_plain hv).1 (.last h1))
  have hm := (checkRate_iff he f).2 hf
  unfold checkRate at hm
  rw [enclosed_inside (by decide) (by decide) he, if_neg (by simp), hps] at hm
  dsimp only at hm
  rw [if_pos] at hm
  · cases hm
  · rw [← Bool.not_eq_false, digitsOnly_iff]
    rintro (h | ⟨c, hc, hc'⟩)
    · exact hv.1 h
    · rw [hd c (hv.2 c hc).1 (hv.2 c hc).2] at hc'; cases hc'

/-- **C88**: what follows the first closing parenthesis is not looked at, if the text ends with such -/
theorem C88_tail_missed {digit : Char → Bool} {s : String} (h : scheduleText digit (s ++ ")") = []) (hs : ')' ∉ s.toList) (t : String) :
    scheduleText digit (s ++ ")" ++ t ++ ")") = [] := by
  have move : ∀ head b, ')' ∉ head.toList → (Enclosed head (s ++ ")") b ↔ Enclosed head (s ++ ")" ++ t ++ ")") b) := by
    intro head b hh
    constructor
    · rintro ⟨tail, e, hb, -⟩
      have e' : s.toList ++ ')' :: [] = (head.toList ++ '(' :: b) ++ ')' :: tail := by rw [← e]; simp
      obtain ⟨e1, -⟩ := split_unique hs (by simp [hh, hb]) e'
      exact ⟨t.toList ++ [')'], by simp [e1], hb, .inr ⟨_, rfl⟩⟩
    · rintro ⟨tail, e, hb, -⟩
      have e' : s.toList ++ ')' :: (t.toList ++ [')']) = (head.toList ++ '(' :: b) ++ ')' :: tail := by rw [← e]; simp
      obtain ⟨e1, -⟩ := split_unique hs (by simp [hh, hb]) e'
      exact ⟨[], by simp [e1], hb, .inl rfl⟩
  have hr := fun b => move "rate" b (by decide)
  have hc := fun b => move "cron" b (by decide)
  refine no_fault fun f hf => ?_
  have : SeenFault digit (s ++ ")") f := by
    cases hf with
    | form h1 h2 => exact .form (fun b hb => h1 b ((hr b).1 hb)) (fun b hb => h2 b ((hc b).1 hb))
    | rateEmpty he => exact .rateEmpty ((hr _).2 he)
    | rateParts he h1 h2 h3 => exact .rateParts ((hr _).2 he) h1 h2 h3
    | rateNumber he h1 h2 => exact .rateNumber ((hr _).2 he) h1 h2
    | cronEmpty he => exact .cronEmpty ((hc _).2 he)
    | cronParts he h1 h2 h3 => exact .cronParts ((hc _).2 he) h1 h2 h3
    | cronDays he h1 h2 h3 => exact .cronDays ((hc _).2 he) h1 h2 h3
  have := (C88_exact digit _ f).2 this
  rw [h] at this
  cases this

theorem C88_violated : ¬ C88_statement := by
  intro h
  have h1 := (h (fun c => c.isDigit) (fun c h0 h9 => by simp [Char.isDigit]; exact ⟨h0, h9⟩) "rate(5 apples)").1 (by decide +kernel)
  rcases h1 with ⟨v, u, e, hv, hu⟩ | ⟨mi, h, dom, mo, dow, y, e, -⟩
  · have e' : ("rate(5".toList ++ ' ' :: "apples)".toList) = ("rate(".toList ++ v) ++ ' ' :: (u ++ [')']) := by
      rw [show "rate(5".toList ++ ' ' :: "apples)".toList = "rate(5 apples)".toList from rfl, e]; simp
    obtain ⟨-, e2⟩ := split_unique (by decide) (by simp [(digits_plain hv).1]) e'
    have e3 : u = "apples".toList := by
      have : u ++ [')'] = "apples".toList ++ [')'] := e2.symm
      exact List.append_cancel_right this
    subst e3
    rcases hu with ⟨-, hu⟩ | ⟨-, hu⟩ <;> revert hu <;> decide
  · simp at e

/-- **C88**: the findings for a property -/
theorem C88_rule {digit : Char → Bool} {kvs : List (Key × Val)} {v : Val} {path : Path}
    (hk : dlookup (Key.str "ScheduleExpression") kvs = some v) (h0 : v ≠ .none) (hnull : ∀ q, ¬ Leaf v q .none) (n : Nat)
    (ht : ∀ q u, PropValue v q u → NoCall u → ∃ s, u = .str s) :
    ∃ res, scheduleRule (n + 2) digit (.dict kvs) path = .ok res ∧ ∀ m, m ∈ res ↔
      ∃ q s f, PropValue v q (.str s) ∧ SeenFault digit s f ∧ m = (path ++ .str "ScheduleExpression" :: q, f) := by
  obtain ⟨res, e, h⟩ := checkValue_only (f := scheduleCheck digit) (path := path) hk h0 hnull n (fun q u hq hu => by
    obtain ⟨s, rfl⟩ := ht q u hq hu
    exact ⟨_, rfl⟩)
  refine ⟨res, e, fun m => ?_⟩
  rw [h]
  constructor
  · rintro ⟨q, u, l, hq, hu, hl, hm⟩
    obtain ⟨s, rfl⟩ := ht q u hq hu
    cases hl
    obtain ⟨f, hf, rfl⟩ := List.mem_map.1 hm
    exact ⟨q, s, f, hq, (C88_exact digit s f).1 hf, rfl⟩
  · rintro ⟨q, s, f, hq, hf, rfl⟩
    exact ⟨q, .str s, _, hq, noCall_text s, rfl, List.mem_map.2 ⟨f, (C88_exact digit s f).2 hf, rfl⟩⟩

/-- a number given as the expression stops the rule -/
theorem C88_number_raises (digit : Char → Bool) (i : Int) (n : Nat) (path : Path) :
    ∃ e, scheduleRule (n + 2) digit (.dict [(.str "ScheduleExpression", .int i)]) path = .error e := ⟨_, rfl⟩

example : KnowsDigits (fun c => c.isDigit) ∧ ScheduleExpression "rate(5 minutes)" ∧ ScheduleExpression "cron(0 12 * * ? *)" ∧
    scheduleText (fun c => c.isDigit) "rate(x minutes)" = [.rateNumber] ∧
    scheduleText (fun c => c.isDigit) "cron(0 12 * * * *)" = [.cronDays] ∧ scheduleText (fun c => c.isDigit) "cron(1 2)" = [.cronParts 2] := by
  refine ⟨fun c h0 h9 => by simp [Char.isDigit]; exact ⟨h0, h9⟩, .inl ⟨"5".toList, "minutes".toList, rfl, ?_, ?_⟩, .inr ?_, by decide +kernel,
    by decide +kernel, by decide +kernel⟩
  · exact ⟨by decide, by decide⟩
  · exact .inr ⟨by decide, .inl rfl⟩
  · refine ⟨"0".toList, "12".toList, "*".toList, "*".toList, "?".toList, "*".toList, rfl, ?_, by decide⟩
    intro f hf
    simp only [List.mem_cons, List.not_mem_nil, or_false] at hf
    rcases hf with rfl | rfl | rfl | rfl | rfl | rfl <;> exact ⟨by decide, by decide, by decide⟩

example : ∃ v : Val, v ≠ .none ∧ (∀ q, ¬ Leaf v q .none) ∧ (∀ q u, PropValue v q u → NoCall u → ∃ s, u = .str s) ∧ PropValue v [] (.str "rate()") := by
  have hl : ∀ q w, Leaf (.str "rate()") q w → q = [] ∧ w = .str "rate()" := by
    intro q w h
    cases h
    exact ⟨rfl, rfl⟩
  refine ⟨.str "rate()", by simp, fun q h => ?_, ?_, [], _, .here (fun ⟨x, hx⟩ => by cases hx) (by simp [noValue]), .inl ⟨by simp, rfl, rfl⟩⟩
  · have := (hl _ _ h).2; cases this
  · rintro q u ⟨q', u', h, h' | ⟨xs, i, x, r, e, -⟩⟩ -
    · obtain ⟨-, -, rfl⟩ := h'
      exact ⟨_, (hl _ _ h).2⟩
    · rw [(hl _ _ h).2] at e; cases e

end CfnLint
