import Verif.Lemmas.JsonSound
import Verif.Spec.JsonMarks
import Mathlib.Data.List.Induction
/- The decoder with marks: what remains without the marks, and where the marks are. -/
namespace CfnLint
open Spec

/-! ### lines and columns -/

theorem rfindLoop_snoc (s : List Char) (c : Char) : ∀ i best,
    rfindLoop (s ++ [c]) i best = if c = '\n' then i + s.length else rfindLoop s i best := by
  induction s with
  | nil => intro i best; simp [rfindLoop]
  | cons d s ih =>
    intro i best
    simp only [List.cons_append, rfindLoop, ih, List.length_cons]
    split <;> [push_cast; rfl]
    omega

theorem column_snoc (s : List Char) (c : Char) :
    column (s ++ [c]) = if c = '\n' then 0 else column s + 1 := by
  unfold column
  by_cases h : c = '\n'
  · simp [h]
  · simp [h, List.takeWhile_cons]

theorem rfindNl_column (p : List Char) : (p.length : Int) - rfindNl p = column p + 1 := by
  induction p using List.reverseRecOn with
  | nil => simp [rfindNl, rfindLoop, column]
  | append_singleton s c ih =>
    unfold rfindNl at ih ⊢
    rw [rfindLoop_snoc, column_snoc]
    by_cases h : c = '\n'
    · simp [h]
    · simp only [if_neg h, List.length_append, List.length_singleton]
      push_cast
      omega

theorem posOf_append (p rest : List Char) : posOf (p ++ rest) rest = p.length := by
  simp [posOf]

theorem lineAt_append (p rest : List Char) : lineAt (p ++ rest) p.length = row p := by
  simp [lineAt, row]

theorem columnAt_append (p rest : List Char) : columnAt (p ++ rest) p.length = column p + 1 := by
  simp only [columnAt, List.take_left]
  exact rfindNl_column p

theorem begEndMark_area (p q r : List Char) :
    begEndMark (p ++ (q ++ r)) p.length (p ++ q).length = area p (p ++ q) := by
  have h1 := lineAt_append p (q ++ r)
  have h2 := columnAt_append p (q ++ r)
  have h3 := lineAt_append (p ++ q) r
  have h4 := columnAt_append (p ++ q) r
  rw [List.append_assoc] at h3 h4
  simp only [begEndMark, area, h1, h2, h3, h4]

theorem errorAt_append (p rest : List Char) :
    errorAt (p ++ rest) rest = ((row p : Int) + 1, (column p : Int) + 1) := by
  simp [errorAt, posOf_append, lineAt_append, columnAt_append]

/-! ### without the marks -/

/-- A result without marks and positions. -/
def eraseWith {α β : Type} (f : α → β) : JPM α → JM β
  | .ok a => .ok (f a)
  | .error e => .error e.erase

theorem decodeUP_erase (int16 : List Char → Option Int) (rest : List Char) (a b c d : Char) :
    eraseWith id (decodeUP int16 rest a b c d) = decodeU int16 a b c d := by
  unfold decodeUP decodeU
  split
  · rfl
  · split <;> simp_all [eraseWith] <;> rfl

theorem consTextP_erase (u : Int) (x : JPM (JText × List Char)) :
    eraseWith id (consTextP u x) = consText u (eraseWith id x) := by
  unfold consTextP consText
  split
  · rfl
  · cases x <;> rfl

theorem pairStepP_erase (int16 : List Char → Option Int) (uni : Int) (r : List Char) :
    eraseWith id (pairStepP int16 uni r) = pairStep int16 uni r := by
  unfold pairStepP pairStep
  split
  · generalize r.drop 2 = x
    rcases x with _ | ⟨a, _ | ⟨b, _ | ⟨c, _ | ⟨d, x⟩⟩⟩⟩ <;> try rfl
    dsimp only
    rw [← decodeUP_erase int16 (r.drop 1)]
    cases decodeUP int16 (r.drop 1) a b c d with
    | error e => rfl
    | ok u =>
      by_cases h : 56320 ≤ u ∧ u ≤ 57343
      · simp only [eraseWith, id, if_pos h]
      · simp only [eraseWith, id, if_neg h]
  · rfl

theorem scanStringP_erase (int16 : List Char → Option Int) (start : List Char) :
    ∀ (n : Nat) (s : List Char), s.length ≤ n →
      eraseWith id (scanStringP int16 start s) = scanString int16 s := by
  intro n
  induction n with
  | zero =>
    intro s hs
    have : s = [] := List.length_eq_zero_iff.1 (by omega)
    subst this
    rw [scanString.eq_def, scanStringP.eq_def]
    rfl
  | succ n ih =>
    intro s hs
    cases s with
    | nil => rw [scanString.eq_def, scanStringP.eq_def]; rfl
    | cons c s =>
      simp only [List.length_cons] at hs
      rw [scanString.eq_def, scanStringP.eq_def]
      dsimp only
      split
      · rfl
      split
      · rcases s with _ | ⟨e, r1⟩
        · rfl
        · simp only [List.length_cons] at hs
          dsimp only
          by_cases he : e = 'u'
          · rw [if_pos he, if_pos he]
            rcases r1 with _ | ⟨a, _ | ⟨b, _ | ⟨c, _ | ⟨d, r5⟩⟩⟩⟩ <;> try rfl
            dsimp only
            rw [← decodeUP_erase int16 (e :: a :: b :: c :: d :: r5)]
            cases decodeUP int16 (e :: a :: b :: c :: d :: r5) a b c d with
            | error e => rfl
            | ok uni =>
              simp only [eraseWith, id]
              rw [← pairStepP_erase]
              cases pairStepP int16 uni r5 with
              | error e => rfl
              | ok uk =>
                simp only [eraseWith, id]
                rw [← ih (r5.drop uk.2) (by simp only [List.length_drop, List.length_cons] at *; omega)]
                exact consTextP_erase _ _
          · rw [if_neg he, if_neg he]
            cases backslash e with
            | none => rfl
            | some u =>
              dsimp only
              rw [← ih _ (by omega)]
              exact consTextP_erase _ _
      · split
        · rfl
        · rw [← ih _ (by omega)]
          exact consTextP_erase _ _

theorem scanStringP_ok {int16 : List Char → Option Int} {start s r : List Char} {t : JText}
    (h : scanStringP int16 start s = .ok (t, r)) : scanString int16 s = .ok (t, r) := by
  rw [← scanStringP_erase int16 start _ s (Nat.le_refl _), h]
  rfl

theorem isNull_erase (v : JMVal) : v.isNull = true ↔ v.erase = .null := by
  cases v with
  | atom v => cases v <;> simp [JMVal.isNull, JMVal.erase]
  | arr m vs => simp [JMVal.isNull, JMVal.erase]
  | obj m kvs => simp [JMVal.isNull, JMVal.erase]

theorem checkDuplicatesP_erase : ∀ (kvs : List ((JText × Span) × JMVal)) (seen : List JText),
    checkDuplicates (JMVal.erasePairs kvs) seen =
      match checkDuplicatesP kvs seen with
      | none => .ok ()
      | some (m, _) => .error (.cfn m)
  | [], _ => rfl
  | ((k, _), v) :: kvs, seen => by
    simp only [JMVal.erasePairs, checkDuplicates, checkDuplicatesP]
    have hn := isNull_erase v
    by_cases hv : v.isNull = true
    · rw [hn.1 hv, if_pos hv]
    · have hv' : v.erase ≠ .null := fun h => hv (hn.2 h)
      rw [if_neg hv]
      have := checkDuplicatesP_erase kvs (k :: seen)
      by_cases hk : k ∈ seen
      · cases hw : v.erase <;> simp_all
      · cases hw : v.erase <;> simp_all

theorem finishObjectP_erase (doc start : List Char) (kvs : List ((JText × Span) × JMVal))
    (last : List Char) (key : JText) (stop : List Char) :
    eraseWith (fun p => (p.1.erase, p.2)) (finishObjectP doc start kvs last key stop) =
      finishObject (JMVal.erasePairs kvs) stop := by
  unfold finishObjectP finishObject
  rw [checkDuplicatesP_erase]
  cases checkDuplicatesP kvs [] with
  | none => rfl
  | some mk => rfl

/-- the decoders agree -/
def MarkErase (int16 : List Char → Option Int) (doc : List Char) (n : Nat) : Prop :=
  (∀ s, eraseWith (fun p => (p.1.erase, p.2)) (markOnce int16 doc n s) = scanOnce int16 n s) ∧
  (∀ s, eraseWith (fun p => (JMVal.eraseList p.1, p.2)) (markItems int16 doc n s) = scanItems int16 n s) ∧
  (∀ s, eraseWith (fun p => (JMVal.erasePairs p.1, p.2.2.2)) (markMembers int16 doc n s) =
    scanMembers int16 n s)

theorem mark_erase (int16 : List Char → Option Int) (doc : List Char) : ∀ n, MarkErase int16 doc n := by
  intro n
  induction n with
  | zero => exact ⟨fun _ => rfl, fun _ => rfl, fun _ => rfl⟩
  | succ n ih =>
    obtain ⟨ih1, ih2, ih3⟩ := ih
    refine ⟨?_, ?_, ?_⟩
    · intro s
      unfold markOnce scanOnce
      rcases s with _ | ⟨c, r⟩
      · rfl
      dsimp only
      by_cases h1 : c = '"'
      · rw [if_pos h1, if_pos h1, ← scanStringP_erase int16 (c :: r) _ r (Nat.le_refl _)]
        cases scanStringP int16 (c :: r) r with
        | error e => rfl
        | ok p => rfl
      rw [if_neg h1, if_neg h1]
      by_cases h2 : c = '{'
      · rw [if_pos h2, if_pos h2]
        rcases skipWs r with _ | ⟨d, r'⟩
        · rfl
        dsimp only
        by_cases h3 : d = '}'
        · rw [if_pos h3, if_pos h3]
          exact finishObjectP_erase _ _ _ _ _ _
        rw [if_neg h3, if_neg h3]
        by_cases h4 : d = '"'
        · rw [if_pos h4, if_pos h4, ← ih3 r']
          cases markMembers int16 doc n r' with
          | error e => rfl
          | ok p => exact finishObjectP_erase _ _ _ _ _ _
        · rw [if_neg h4, if_neg h4]
          rfl
      rw [if_neg h2, if_neg h2]
      by_cases h5 : c = '['
      · rw [if_pos h5, if_pos h5]
        rcases skipWs r with _ | ⟨d, r'⟩
        · rfl
        dsimp only
        by_cases h3 : d = ']'
        · rw [if_pos h3, if_pos h3]
          rfl
        rw [if_neg h3, if_neg h3, ← ih2 (d :: r')]
        cases markItems int16 doc n (d :: r') with
        | error e => rfl
        | ok p => rfl
      rw [if_neg h5, if_neg h5]
      cases h : scanAtom (c :: r) with
      | ok p => rfl
      | error e => rw [scanAtom_err h]; rfl
    · intro s
      unfold markItems scanItems
      rw [← ih1 s]
      cases markOnce int16 doc n s with
      | error e => cases e <;> rfl
      | ok p =>
        obtain ⟨v, r⟩ := p
        simp only [eraseWith]
        rcases skipWs r with _ | ⟨d, r'⟩
        · rfl
        dsimp only
        by_cases h3 : d = ']'
        · rw [if_pos h3, if_pos h3]
          rfl
        rw [if_neg h3, if_neg h3]
        by_cases h4 : d = ','
        · rw [if_pos h4, if_pos h4, ← ih2 (skipWs r')]
          cases markItems int16 doc n (skipWs r') with
          | error e => rfl
          | ok p => rfl
        · rw [if_neg h4, if_neg h4]
          rfl
    · intro s
      unfold markMembers scanMembers
      rw [← scanStringP_erase int16 ('"' :: s) _ s (Nat.le_refl _)]
      cases scanStringP int16 ('"' :: s) s with
      | error e => rfl
      | ok p =>
        obtain ⟨k, r⟩ := p
        simp only [eraseWith, id]
        rcases skipWs r with _ | ⟨d, r1⟩
        · rfl
        dsimp only
        by_cases h3 : d = ':'
        · rw [if_pos h3, if_pos h3, ← ih1 (skipWs r1)]
          cases markOnce int16 doc n (skipWs r1) with
          | error e => cases e <;> rfl
          | ok p =>
            obtain ⟨v, r2⟩ := p
            simp only [eraseWith]
            rcases skipWs r2 with _ | ⟨d', r3⟩
            · rfl
            dsimp only
            by_cases h4 : d' = '}'
            · rw [if_pos h4, if_pos h4]
              rfl
            rw [if_neg h4, if_neg h4]
            by_cases h5 : d' = ','
            · rw [if_pos h5, if_pos h5]
              rcases skipWs r3 with _ | ⟨q, r4⟩
              · rfl
              dsimp only
              by_cases h6 : q = '"'
              · rw [if_pos h6, if_pos h6, ← ih3 r4]
                cases markMembers int16 doc n r4 with
                | error e => rfl
                | ok p => rfl
              · rw [if_neg h6, if_neg h6]
                rfl
            · rw [if_neg h5, if_neg h5]
              rfl
        · rw [if_neg h3, if_neg h3]
          rfl

end CfnLint
