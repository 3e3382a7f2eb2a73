import Verif.Model.Sub
import Verif.Spec.Sub
namespace CfnLint
open Spec

theorem subBlank_space {c : Char} (h : c = ' ' ∨ c = '\t') : isPySpace c = true := by
  rcases h with rfl | rfl <;> decide

theorem subName_space {c : Char} (h : '!' ≤ c ∧ c ≤ '~' ∧ c ≠ '$' ∧ c ≠ '{' ∧ c ≠ '}') : isPySpace c = false := by
  obtain ⟨h1, h2, _⟩ := h
  have a : 33 ≤ c.toNat := h1
  have b : c.toNat ≤ 126 := h2
  unfold isPySpace
  simp only [Bool.or_eq_false_iff, Bool.and_eq_false_iff, decide_eq_false_iff_not, beq_eq_false_iff_ne]
  omega

theorem isPySpace_iff {c : Char} : isPySpace c = true ↔ WhiteSpace c := by
  unfold isPySpace WhiteSpace
  simp only [Bool.or_eq_true, Bool.and_eq_true, decide_eq_true_eq, beq_iff_eq, List.mem_cons, List.not_mem_nil,
    or_false]
  omega

theorem dropWhile_split (p : Char → Bool) : ∀ b : List Char,
    ∃ l, b = l ++ b.dropWhile p ∧ (∀ c ∈ l, p c = true) ∧ ∀ c, (b.dropWhile p).head? = some c → p c = false
  | [] => ⟨[], rfl, by simp, by simp⟩
  | c :: b => by
    cases hc : p c with
    | true =>
      obtain ⟨l, h1, h2, h3⟩ := dropWhile_split p b
      rw [List.dropWhile_cons_of_pos hc]
      refine ⟨c :: l, by rw [List.cons_append, ← h1], ?_, h3⟩
      intro c' hc'
      rcases List.mem_cons.1 hc' with rfl | h
      · exact hc
      · exact h2 _ h
    | false =>
      rw [List.dropWhile_cons_of_neg (by simp [hc])]
      exact ⟨[], rfl, by simp, by intro c' h; cases h; exact hc⟩

theorem pyStrip_trimmed (b : List Char) : Trimmed b (pyStrip b) := by
  obtain ⟨l, h1, h2, h3⟩ := dropWhile_split isPySpace b
  obtain ⟨r, h4, h5, h6⟩ := dropWhile_split isPySpace (b.dropWhile isPySpace).reverse
  have h7 : b.dropWhile isPySpace = pyStrip b ++ r.reverse := by
    have := congrArg List.reverse h4
    rw [List.reverse_reverse, List.reverse_append] at this
    exact this
  refine ⟨⟨l, r.reverse, by rw [← h7, ← h1], fun c hc => isPySpace_iff.1 (h2 c hc),
    fun c hc => isPySpace_iff.1 (h5 c (List.mem_reverse.1 hc))⟩, ?_, ?_⟩
  · intro c hc hw
    rw [← isPySpace_iff] at hw
    rw [h3 c (by rw [h7, List.head?_append, hc]; rfl)] at hw
    cases hw
  · intro c hc hw
    rw [← isPySpace_iff] at hw
    unfold pyStrip at hc
    rw [List.getLast?_reverse] at hc
    rw [h6 c hc] at hw
    cases hw

theorem dropWhile_blanks {l : List Char} (h : SubBlank l) (r : List Char) :
    (l ++ r).dropWhile isPySpace = r.dropWhile isPySpace := by
  induction l with
  | nil => rfl
  | cons c l ih =>
    rw [List.cons_append, List.dropWhile_cons_of_pos (subBlank_space (h c List.mem_cons_self))]
    exact ih fun c hc => h c (List.mem_cons_of_mem _ hc)

theorem dropWhile_name {n : List Char} (h : SubName n) (hne : n ≠ []) (r : List Char) :
    (n ++ r).dropWhile isPySpace = n ++ r := by
  cases n with
  | nil => exact absurd rfl hne
  | cons c n =>
    rw [List.cons_append, List.dropWhile_cons_of_neg]
    rw [subName_space (h c List.mem_cons_self)]
    simp

theorem pyStrip_name {l n r : List Char} (hl : SubBlank l) (hn : SubName n) (hne : n ≠ []) (hr : SubBlank r) :
    pyStrip (l ++ (n ++ r)) = n := by
  unfold pyStrip
  rw [dropWhile_blanks hl, dropWhile_name hn hne, List.reverse_append,
    dropWhile_blanks (fun c hc => hr c (List.mem_reverse.1 hc))]
  have := dropWhile_name (n := n.reverse) (fun c hc => hn c (List.mem_reverse.1 hc)) (by simpa using hne) []
  rw [List.append_nil] at this
  rw [this, List.reverse_reverse]

theorem lazyClose_append {b s : List Char} (h : ∀ c ∈ b, c ≠ '}' ∧ c ≠ '\n') :
    lazyClose (b ++ '}' :: s) = some (b, s) := by
  induction b with
  | nil => simp [lazyClose]
  | cons c b ih =>
    obtain ⟨h1, h2⟩ := h c List.mem_cons_self
    rw [List.cons_append, lazyClose, if_neg h1, if_neg h2, ih fun c hc => h c (List.mem_cons_of_mem _ hc)]
    rfl

theorem lazyClose_some : ∀ {x b s : List Char}, lazyClose x = some (b, s) →
    x = b ++ '}' :: s ∧ ∀ c ∈ b, c ≠ '}' ∧ c ≠ '\n'
  | [], b, s, h => by simp [lazyClose] at h
  | c :: x, b, s, h => by
    rw [lazyClose] at h
    split at h
    · rename_i hc
      cases h
      exact ⟨by rw [hc]; rfl, by simp⟩
    · split at h
      · cases h
      · rename_i h1 h2
        simp only [Option.map_eq_some_iff, Prod.exists, Prod.mk.injEq] at h
        obtain ⟨b', s', h, rfl, rfl⟩ := h
        obtain ⟨h3, h4⟩ := lazyClose_some h
        refine ⟨by rw [h3]; rfl, ?_⟩
        intro c' hc'
        rcases List.mem_cons.1 hc' with rfl | hc'
        · exact ⟨h1, h2⟩
        · exact h4 c' hc'

theorem subMatch_some {x b s : List Char} (h : subMatch x = some (b, s)) :
    x = '$' :: '{' :: (b ++ '}' :: s) ∧ ∃ c r, b = c :: r ∧ c ≠ '!' ∧ ∀ c ∈ r, c ≠ '}' ∧ c ≠ '\n' := by
  unfold subMatch at h
  split at h
  · split at h
    · cases h
    · rename_i c r hc
      simp only [Option.map_eq_some_iff, Prod.exists, Prod.mk.injEq] at h
      obtain ⟨b', s', h, rfl, rfl⟩ := h
      obtain ⟨h3, h4⟩ := lazyClose_some h
      exact ⟨by rw [h3]; rfl, c, b', rfl, hc, h4⟩
  · cases h

theorem subMatch_none {c : Char} {s : List Char} (h : ¬ (c = '$' ∧ s.head? = some '{')) :
    subMatch (c :: s) = none := by
  unfold subMatch
  split
  · rename_i heq
    cases heq
    exact absurd ⟨rfl, rfl⟩ h
  · rfl

theorem subScan_plain {n : Nat} : ∀ {l s : List Char}, (∀ c ∈ l, c ≠ '$') →
    subScan (l.length + n) (l ++ s) = subScan n s
  | [], s, _ => by simp
  | c :: l, s, h => by
    have : (c :: l).length + n = (l.length + n) + 1 := by simp; omega
    rw [this, List.cons_append, subScan,
      subMatch_none (fun hc => h c List.mem_cons_self hc.1)]
    exact subScan_plain fun c hc => h c (List.mem_cons_of_mem _ hc)

/-- the scan of a well-formed text -/
theorem subScan_text {s : List Char} {ns : List (List Char)} (h : SubText s ns) :
    ∀ n, s.length ≤ n → subScan n s = ns.map String.ofList := by
  induction h with
  | nil => intro n _; cases n <;> rfl
  | @char c s ns hc _ ih =>
    intro n hn
    obtain ⟨m, rfl⟩ : ∃ m, n = m + 1 := ⟨n - 1, by simp at hn; omega⟩
    rw [subScan, subMatch_none hc]
    exact ih m (by simpa using hn)
  | @literal b s ns hb _ ih =>
    intro n hn
    simp only [List.length_cons, List.length_append] at hn
    obtain ⟨m, rfl⟩ : ∃ m, n = ('{' :: '!' :: (b ++ ['}'])).length + m + 1 :=
      ⟨n - (b.length + 4), by simp; omega⟩
    rw [subScan]
    have h1 : subMatch ('$' :: '{' :: '!' :: (b ++ '}' :: s)) = none := by simp [subMatch]
    rw [h1]
    have h2 : '{' :: '!' :: (b ++ '}' :: s) = ('{' :: '!' :: (b ++ ['}'])) ++ s := by simp
    dsimp only
    rw [h2, subScan_plain]
    · exact ih m (by simp at hn; omega)
    · intro c hc
      simp only [List.mem_cons, List.mem_append, List.not_mem_nil, or_false] at hc
      rcases hc with rfl | rfl | hc | rfl
      · decide
      · decide
      · exact (hb c hc).2.2.1
      · decide
  | @var l b r s ns hl hb hne hhead hr _ ih =>
    intro n hn
    simp only [List.length_cons, List.length_append] at hn
    obtain ⟨m, rfl⟩ : ∃ m, n = m + 1 := ⟨n - 1, by omega⟩
    have hlow : ∀ c ∈ l ++ (b ++ r), c ≠ '}' ∧ c ≠ '\n' := by
      intro c hc
      simp only [List.mem_append] at hc
      rcases hc with hc | hc | hc
      · rcases hl c hc with rfl | rfl <;> decide
      · obtain ⟨h1, _, _, _, h5⟩ := hb c hc
        refine ⟨h5, ?_⟩
        rintro rfl
        exact absurd h1 (by decide)
      · rcases hr c hc with rfl | rfl <;> decide
    have hm : subMatch ('$' :: '{' :: (l ++ (b ++ (r ++ '}' :: s)))) = some (l ++ (b ++ r), s) := by
      have h2 : l ++ (b ++ (r ++ '}' :: s)) = (l ++ (b ++ r)) ++ '}' :: s := by simp
      rw [h2]
      cases hx : l ++ (b ++ r) with
      | nil => simp only [List.append_eq_nil_iff] at hx; exact absurd hx.2.1 hne
      | cons c x =>
        rw [hx] at hlow
        have hc : c ≠ '!' := by
          cases l with
          | nil =>
            cases b with
            | nil => exact absurd rfl hne
            | cons c' b =>
              cases hx
              rintro rfl
              exact hhead rfl
          | cons c' l =>
            cases hx
            rcases hl c List.mem_cons_self with rfl | rfl <;> decide
        rw [List.cons_append, subMatch, if_neg hc, lazyClose_append fun c hc => hlow c (List.mem_cons_of_mem _ hc)]
        rfl
    rw [subScan, hm]
    dsimp only
    rw [pyStrip_name hl hb hne hr, ih m (by omega)]
    rfl

theorem subParams_text {s : String} {ns : List (List Char)} (h : SubText s.toList ns) :
    subParams s = ns.map String.ofList := subScan_text h _ (Nat.le_refl _)

theorem subVar_found {s n : String} {ns : List (List Char)} (h : SubText s.toList ns) :
    n ∈ subParams s ↔ SubVar s n := by
  rw [subParams_text h, List.mem_map]
  constructor
  · rintro ⟨x, hx, rfl⟩
    exact ⟨ns, h, by simpa using hx⟩
  · rintro ⟨ns', h', hm⟩
    have := (subParams_text h).symm.trans (subParams_text h')
    have hinj : ns = ns' := by
      refine (List.map_inj_right ?_).1 this
      intro a b hab
      simpa using congrArg String.toList hab
    subst hinj
    exact ⟨_, hm, by simp⟩

/-- every name found stands between `${` and `}` -/
theorem subScan_sound : ∀ (n : Nat) (s : List Char) (x : String), x ∈ subScan n s →
    ∃ pre b post, s = pre ++ '$' :: '{' :: (b ++ '}' :: post) ∧ b ≠ [] ∧ b.head? ≠ some '!' ∧
      (∀ c ∈ b.tail, c ≠ '}' ∧ c ≠ '\n') ∧ x.toList = pyStrip b
  | 0, _, x, h => by simp [subScan] at h
  | n + 1, [], x, h => by simp [subScan] at h
  | n + 1, c :: r, x, h => by
    rw [subScan] at h
    split at h
    · rename_i body rest hm
      obtain ⟨h1, c', r', rfl, h3, h4⟩ := subMatch_some hm
      rcases List.mem_cons.1 h with rfl | h
      · exact ⟨[], c' :: r', rest, h1, by simp, by simpa using h3, by simpa using h4, by simp⟩
      · obtain ⟨pre, b, post, hs, hrest⟩ := subScan_sound n rest x h
        refine ⟨'$' :: '{' :: (c' :: r' ++ '}' :: pre), b, post, ?_, hrest⟩
        rw [h1, hs]
        simp
    · obtain ⟨pre, b, post, hs, hrest⟩ := subScan_sound n r x h
      exact ⟨c :: pre, b, post, by rw [hs]; rfl, hrest⟩

end CfnLint
