import Verif.Model.Cidr
import Verif.Spec.Cidr
import Verif.Props.FnShape
import Verif.Props.Regex
import Mathlib.Tactic.Tauto
/- Properties of the rule on `Fn::Cidr` (C75). -/
namespace CfnLint
open Spec

theorem cidrBlock_iff {b : Val} (h1 : ∀ s : String, b = .str s → ¬ ∃ l, s.toList = l ++ ['\n']) (h2 : OneKey b) :
    cidrBlock b = true ↔ CidrBlock b := by
  cases b with
  | str s =>
    rw [show cidrBlock (.str s) = regexCidr.matchesAll s from rfl, C74_cidr_partial (h1 s rfl)]
    constructor
    · exact .text
    · intro h
      cases h with
      | text h => exact h
      | call h => obtain ⟨f, _, a, e⟩ := h; cases e
  | dict kvs =>
    match kvs, h2 kvs rfl with
    | [(k, a)], _ =>
      rw [show cidrBlock (.dict [(k, a)]) = isKeyIn k cidrFunctions from rfl]
      constructor
      · exact fun h => .call (oneCall_dict.2 h)
      · intro h
        generalize e : Val.dict [(k, a)] = w at h
        cases h with
        | text _ => cases e
        | call h => subst e; exact oneCall_dict.1 h
  | _ =>
    refine ⟨fun h => (by cases h), fun h => ?_⟩
    cases h with
    | call h => obtain ⟨f, _, a, e⟩ := h; cases e

theorem cidrNumber_iff {b : Val} (h : PlainNumber b) : cidrNumber b = true ↔ CidrNumber b := by
  obtain ⟨h2, h3, -⟩ := h
  cases b with
  | int n => exact ⟨fun _ => .int, fun _ => rfl⟩
  | bool x => exact absurd rfl (h3 x)
  | dict kvs =>
    match kvs, h2 kvs rfl with
    | [(k, a)], _ =>
      rw [show cidrNumber (.dict [(k, a)]) = isKeyIn k cidrFunctions from rfl]
      constructor
      · exact fun h => .call (oneCall_dict.2 h)
      · intro h
        generalize e : Val.dict [(k, a)] = w at h
        cases h with
        | int => cases e
        | call h => subst e; exact oneCall_dict.1 h
  | _ =>
    refine ⟨fun h => (by cases h), fun h => ?_⟩
    cases h with
    | call h => obtain ⟨f, _, a, e⟩ := h; cases e

theorem cidrShape_bad {v : Val} (h : ∀ b c, v ≠ .list [b, c]) (h' : ∀ b c m, v ≠ .list [b, c, m]) (p : Path) : cidrShape p v = .ok [p] := by
  unfold cidrShape
  split
  · exact absurd rfl (h _ _)
  · exact absurd rfl (h' _ _ _)
  · rfl

theorem cidrShape_spec {v : Val} (hv : PlainCidrCall v) (q : Path) :
    ∃ l, cidrShape q v = .ok l ∧ ∀ p, p ∈ l ↔ ∃ s, BadCidr q v s ∧ p = q ++ s := by
  obtain ⟨h2, h3⟩ := hv
  by_cases h : ∃ b c m, v = .list [b, c, m]
  · obtain ⟨b, c, m, rfl⟩ := h
    obtain ⟨k1, k2, k3, k4⟩ := h3 b c m rfl
    have i1 := cidrBlock_iff k1 k2
    have i2 := cidrNumber_iff k3
    have i3 := cidrNumber_iff k4
    refine ⟨_, rfl, fun p => ?_⟩
    have inv : ∀ s, BadCidr q (.list [b, c, m]) s ↔
        (s = [.int 0] ∧ ¬ CidrBlock b) ∨ (s = [.int 1] ∧ ¬ CidrNumber c) ∨ (s = [.int 2] ∧ ¬ CidrNumber m) := by
      intro s
      constructor
      · intro h
        cases h with
        | size _ h => exact absurd rfl (h _ _ _)
        | block _ h => exact .inl ⟨rfl, h⟩
        | count _ h => exact .inr (.inl ⟨rfl, h⟩)
        | mask h => exact .inr (.inr ⟨rfl, h⟩)
      · rintro (⟨rfl, h⟩ | ⟨rfl, h⟩ | ⟨rfl, h⟩)
        · exact .block (Nat.le_refl _) h
        · exact .count (Nat.le_refl _) h
        · exact .mask h
    simp only [inv, ← i1, ← i2, ← i3]
    cases cidrBlock b <;> cases cidrNumber c <;> cases cidrNumber m <;> simp
  · have h : ∀ b c m, v ≠ .list [b, c, m] := fun b c m e => h ⟨b, c, m, e⟩
    refine ⟨_, cidrShape_bad h2 h q, fun p => ?_⟩
    rw [List.mem_singleton]
    constructor
    · rintro rfl
      exact ⟨[], .size h2 h, by simp⟩
    · rintro ⟨s, hb, rfl⟩
      cases hb with
      | size _ _ => simp
      | @block b c r hr _ =>
        match r, hr with
        | [], _ => exact absurd rfl (h2 _ _)
        | [m], _ => exact absurd rfl (h _ _ _)
      | @count b c r hr _ =>
        match r, hr with
        | [], _ => exact absurd rfl (h2 _ _)
        | [m], _ => exact absurd rfl (h _ _ _)
      | mask _ => exact absurd rfl (h _ _ _)

/-- a bound of a parameter -/
theorem cidrBound_spec {fltOk : String → Bool} {fs : List (Key × Val)} (hn : (fs.map Prod.fst).Nodup) {b : String}
    (hi : ∀ v, (Key.str b, v) ∈ fs → ∃ i, v = .int i) :
    ∃ r, cidrBound fltOk ((dlookup (Key.str b) fs).getD .none) = .ok r ∧
      (r = true ↔ ∃ i : Int, (Key.str b, Val.int i) ∈ fs ∧ 1 ≤ i ∧ i ≤ 256) := by
  cases hl : dlookup (Key.str b) fs with
  | none =>
    refine ⟨false, rfl, ?_⟩
    simp only [Bool.false_eq_true, false_iff]
    rintro ⟨i, h, -⟩
    rw [dlookup_of_mem hn h] at hl
    cases hl
  | some v =>
    obtain ⟨i, rfl⟩ := hi v (dlookup_mem hl)
    have key : ∀ P : Int → Prop, (∃ j : Int, (Key.str b, Val.int j) ∈ fs ∧ P j) ↔ P i := by
      intro P
      constructor
      · rintro ⟨j, h, hp⟩
        rw [dlookup_of_mem hn h] at hl
        cases hl
        exact hp
      · exact fun h => ⟨i, dlookup_mem hl, h⟩
    rw [key (fun i => 1 ≤ i ∧ i ≤ 256)]
    by_cases h0 : i = 0
    · subst h0
      exact ⟨false, rfl, by simp⟩
    · refine ⟨decide (1 ≤ i) && decide (i ≤ 256), ?_, by simp⟩
      unfold cidrBound
      rw [Option.getD_some, if_pos (by simp [Val.truthy, h0])]

theorem wf_fields {fs : List (Key × Val)} (h : (Val.dict fs).WF) : (fs.map Prod.fst).Nodup := by
  rw [Val.WF] at h
  exact h.1

/-- a parameter named by a call -/
theorem cidrParameter_spec {fltOk : String → Bool} {t : Val} {n : String} (hw : t.WF) (ho : ∃ kvs, t = .dict kvs)
    (hs : ∀ v, At t [.str "Parameters"] v → ∃ kvs, v = .dict kvs)
    (hp : ∀ v, At t [.str "Parameters", .str n] v → ∃ kvs, v = .dict kvs ∧ kvs ≠ [])
    (hb : ∀ b v, b ∈ ["MinValue", "MaxValue"] → At t [.str "Parameters", .str n, .str b] v → ∃ i, v = .int i) :
    ∃ l, cidrParameter fltOk t (.str n) = .ok l ∧ ∀ p, p ∈ l ↔ BadNumber t n 256 p := by
  obtain ⟨kvs, rfl⟩ := ho
  unfold cidrParameter
  simp only [Val.getD, toKey, Option.bind_some]
  cases hl : dlookup (Key.str "Parameters") kvs with
  | none =>
    refine ⟨[], rfl, fun p => ?_⟩
    simp only [List.not_mem_nil, false_iff]
    rintro ⟨fs, h, -⟩
    cases h with
    | key hm _ =>
      rw [dlookup_of_mem (wf_fields hw) hm] at hl
      cases hl
  | some s =>
    have hm := dlookup_mem hl
    obtain ⟨ps, rfl⟩ := hs s (.key hm .here)
    have hitems : itemsOf (if (Val.dict ps).truthy = true then Val.dict ps else Val.dict []) = .ok ps := by
      cases ps <;> rfl
    simp only [Option.getD_some, hitems]
    have hwp : (Val.dict ps).WF := at_wf (.key hm .here) hw
    cases hl2 : dlookup (Key.str n) ps with
    | none =>
      refine ⟨[], rfl, fun p => ?_⟩
      simp only [List.not_mem_nil, false_iff]
      rintro ⟨fs, h, -⟩
      obtain ⟨u, h1, h2⟩ := at_split (p := [.str "Parameters"]) (q := [.str n]) h
      cases at_det hw (.key hm .here) h1
      rw [dlookup_of_mem (wf_fields hwp) (at_dict_one.1 h2)] at hl2
      cases hl2
    | some o =>
      have hm2 := dlookup_mem hl2
      have hat : At (.dict kvs) [.str "Parameters", .str n] o := .key hm (.key hm2 .here)
      obtain ⟨fs, rfl, hne⟩ := hp o hat
      have hwf := wf_fields (at_wf hat hw)
      have huniq : ∀ fs', At (.dict kvs) [.str "Parameters", .str n] (.dict fs') → fs' = fs := by
        intro fs' h
        have := at_det hw hat h
        cases this
        rfl
      have hbad : ∀ p, BadNumber (.dict kvs) n 256 p ↔
          (((.str "Type", .str "Number") ∉ fs ∧ p = [.str "Parameters", .str n]) ∨
           ((.str "Type", .str "Number") ∈ fs ∧ ∃ b ∈ ["MinValue", "MaxValue"],
             (¬ ∃ i : Int, (.str b, .int i) ∈ fs ∧ 1 ≤ i ∧ i ≤ 256) ∧ p = [.str "Parameters", .str n, .str b])) := by
        intro p
        constructor
        · rintro ⟨fs', h, h'⟩
          rw [huniq fs' h] at h'
          exact h'
        · exact fun h => ⟨fs, hat, h⟩
      simp only [hbad]
      have htru : (Val.dict fs).truthy = true := by
        cases fs with
        | nil => exact absurd rfl hne
        | cons _ _ => rfl
      simp only [Option.map_some, htru, if_true]
      have hty : (dlookup (Key.str "Type") fs).getD .none = .str "Number" ↔ (Key.str "Type", Val.str "Number") ∈ fs := by
        constructor
        · intro h
          cases hd : dlookup (Key.str "Type") fs with
          | none => rw [hd] at h; cases h
          | some v =>
            rw [hd, Option.getD_some] at h
            subst h
            exact dlookup_mem hd
        · intro h
          rw [dlookup_of_mem hwf h, Option.getD_some]
      obtain ⟨a, ha, ha'⟩ := cidrBound_spec (fltOk := fltOk) hwf (b := "MinValue") (fun v hv => hb _ v (by simp)
        (at_append (p := [.str "Parameters", .str n]) hat (at_dict_one.2 hv)))
      obtain ⟨b, hb, hb'⟩ := cidrBound_spec (fltOk := fltOk) hwf (b := "MaxValue") (fun v hv => hb _ v (by simp)
        (at_append (p := [.str "Parameters", .str n]) hat (at_dict_one.2 hv)))
      simp only [ha, hb, hty]
      by_cases ht : (Key.str "Type", Val.str "Number") ∈ fs
      · rw [if_pos ht]
        refine ⟨_, rfl, fun p => ?_⟩
        simp only [List.mem_cons, List.not_mem_nil, or_false, exists_eq_or_imp, exists_eq_left, ← ha', ← hb', ht, not_true_eq_false,
          false_and, true_and, false_or]
        cases a <;> cases b <;> simp
      · rw [if_neg ht]
        exact ⟨_, rfl, fun p => by simp [ht]⟩

theorem refArgument_mem {v r : Val} : r ∈ refArgument v ↔ v = .dict [(.str "Ref", r)] := by
  unfold refArgument
  split
  · simp only [List.mem_singleton, Val.dict.injEq, List.cons.injEq, Prod.mk.injEq, and_true, true_and]
    exact eq_comm
  · rename_i h
    simp only [List.not_mem_nil, false_iff]
    intro e
    exact h _ e

theorem cidrCounts_mem {v r : Val} : r ∈ cidrCounts v ↔ ∃ b rest, v = .list (b :: .dict [(.str "Ref", r)] :: rest) ∧ rest.length ≤ 1 := by
  unfold cidrCounts
  split
  · rw [refArgument_mem]
    constructor
    · rintro rfl; exact ⟨_, [], rfl, by simp⟩
    · rintro ⟨b, rest, e, _⟩; cases e; rfl
  · rw [refArgument_mem]
    constructor
    · rintro rfl; exact ⟨_, [_], rfl, by simp⟩
    · rintro ⟨b, rest, e, _⟩; cases e; rfl
  · rename_i h1 h2
    simp only [List.not_mem_nil, false_iff]
    rintro ⟨b, rest, e, hr⟩
    match rest, hr with
    | [], _ => exact h1 _ _ e
    | [m], _ => exact h2 _ _ _ e

theorem cidrMasks_mem {v r : Val} : r ∈ cidrMasks v ↔ ∃ b c, v = .list [b, c, .dict [(.str "Ref", r)]] := by
  unfold cidrMasks
  split
  · rw [refArgument_mem]
    constructor
    · rintro rfl; exact ⟨_, _, rfl⟩
    · rintro ⟨b, c, e⟩; cases e; rfl
  · rename_i h1
    simp only [List.not_mem_nil, false_iff]
    rintro ⟨b, c, e⟩
    exact h1 _ _ _ e

/-- the check of the parameters of one kind -/
theorem cidrParameters_spec {fltOk : String → Bool} {t : Val} (h : PlainCidr t) {get : Val → List Val} {R : String → Prop}
    (hR : ∀ n, R n → CountRef t n ∨ MaskRef t n)
    (h1 : ∀ n, R n ↔ ∃ q v, At t (q ++ [.str "Fn::Cidr"]) v ∧ Val.str n ∈ get v)
    (h2 : ∀ q v r, At t (q ++ [.str "Fn::Cidr"]) v → r ∈ get v → ∃ s, r = .str s) :
    ∃ res, collectM (cidrParameter fltOk t) ((searchDeepKeys "Fn::Cidr" t (.dict [])).flatMap (fun f => get f.2)) = .ok res ∧
      ∀ p, p ∈ res ↔ ∃ n, R n ∧ BadNumber t n 256 p := by
  have hs := (C27_search_partial "Fn::Cidr" t h.wf).1
  have hmem : ∀ r, r ∈ (searchDeepKeys "Fn::Cidr" t (.dict [])).flatMap (fun f => get f.2) ↔ ∃ n, R n ∧ r = .str n := by
    intro r
    rw [List.mem_flatMap]
    constructor
    · rintro ⟨⟨p, v⟩, hf, hr⟩
      obtain ⟨hat, q, rfl⟩ := (hs p v).1 hf
      obtain ⟨s, rfl⟩ := h2 q v r hat hr
      exact ⟨s, (h1 s).2 ⟨q, v, hat, hr⟩, rfl⟩
    · rintro ⟨n, hn, rfl⟩
      obtain ⟨q, v, hat, hr⟩ := (h1 n).1 hn
      exact ⟨_, (hs _ v).2 ⟨hat, q, rfl⟩, hr⟩
  have hpar : ∀ n, R n → ∃ l, cidrParameter fltOk t (.str n) = .ok l ∧ ∀ p, p ∈ l ↔ BadNumber t n 256 p := fun n hn =>
    cidrParameter_spec h.wf h.object h.parameters (fun v hv => h.parameter n v (hR n hn) hv) (fun b v hb hv => h.bounds n b v (hR n hn) hb hv)
  obtain ⟨res, hres⟩ := collectM_ok (f := cidrParameter fltOk t)
    (as := (searchDeepKeys "Fn::Cidr" t (.dict [])).flatMap (fun f => get f.2)) (by
      intro a ha
      obtain ⟨n, hn, rfl⟩ := (hmem a).1 ha
      obtain ⟨l, hl, -⟩ := hpar n hn
      exact ⟨l, hl⟩)
  refine ⟨res, hres, fun p => ?_⟩
  rw [mem_collectM hres]
  constructor
  · rintro ⟨a, ha, l, hl, hp⟩
    obtain ⟨n, hn, rfl⟩ := (hmem a).1 ha
    obtain ⟨l', hl', hp'⟩ := hpar n hn
    rw [hl] at hl'
    cases hl'
    exact ⟨n, hn, (hp' p).1 hp⟩
  · rintro ⟨n, hn, hp⟩
    obtain ⟨l, hl, hp'⟩ := hpar n hn
    exact ⟨_, (hmem _).2 ⟨n, hn, rfl⟩, l, hl, (hp' p).2 hp⟩

/-- (C75) the rule reports exactly the wrong blocks, counts and masks and the parameters with wrong bounds, the masks being checked
against 256 -/
theorem C75_reports {fltOk : String → Bool} {t : Val} (h : PlainCidr t) :
    ∃ res, cidrRule fltOk t (.dict []) = .ok res ∧ ∀ p, p ∈ res ↔
      BadCall "Fn::Cidr" BadCidr t p ∨ (∃ n, CountRef t n ∧ BadNumber t n 256 p) ∨ (∃ n, MaskRef t n ∧ BadNumber t n 256 p) := by
  obtain ⟨a, ha, ha'⟩ := callRule_iff (fn := "Fn::Cidr") (check := cidrShape) (Bad := BadCidr) h.wf
    (fun q v hat => cidrShape_spec (h.calls q v hat) _)
  obtain ⟨b, hb, hb'⟩ := cidrParameters_spec (fltOk := fltOk) h (get := cidrCounts) (R := CountRef t) (fun n hn => .inl hn)
    (fun n => by
      constructor
      · rintro ⟨q, b, r, hat, hr⟩
        exact ⟨q, _, hat, cidrCounts_mem.2 ⟨b, r, rfl, hr⟩⟩
      · rintro ⟨q, v, hat, hr⟩
        obtain ⟨b, r, rfl, hlen⟩ := cidrCounts_mem.1 hr
        exact ⟨q, b, r, hat, hlen⟩)
    (fun q v r hat hr => by
      obtain ⟨b, rest, rfl, hlen⟩ := cidrCounts_mem.1 hr
      obtain ⟨h2, h3⟩ := h.calls q _ hat
      match rest, hlen with
      | [], _ => exact absurd rfl (h2 _ _)
      | [m], _ => exact (h3 _ _ _ rfl).2.2.1.2.2 r rfl)
  obtain ⟨c, hc, hc'⟩ := cidrParameters_spec (fltOk := fltOk) h (get := cidrMasks) (R := MaskRef t) (fun n hn => .inr hn)
    (fun n => by
      constructor
      · rintro ⟨q, b, c, hat⟩
        exact ⟨q, _, hat, cidrMasks_mem.2 ⟨b, c, rfl⟩⟩
      · rintro ⟨q, v, hat, hr⟩
        obtain ⟨b, c, rfl⟩ := cidrMasks_mem.1 hr
        exact ⟨q, b, c, hat⟩)
    (fun q v r hat hr => by
      obtain ⟨b, c, rfl⟩ := cidrMasks_mem.1 hr
      exact ((h.calls q _ hat).2 _ _ _ rfl).2.2.2.2.2 r rfl)
  refine ⟨a ++ b ++ c, ?_, fun p => ?_⟩
  · unfold cidrRule
    rw [ha]
    simp only
    rw [hb]
    simp only
    rw [hc]
  · rw [List.mem_append, List.mem_append, ha', hb', hc', or_assoc]

theorem badNumber_128 {t : Val} {n : String} (hw : ∀ b (i : Int), b ∈ ["MinValue", "MaxValue"] →
    At t [.str "Parameters", .str n, .str b] (.int i) → ¬ (128 < i ∧ i ≤ 256)) {p : Path} : BadNumber t n 256 p ↔ BadNumber t n 128 p := by
  unfold BadNumber
  refine exists_congr fun fs => and_congr_right fun hat => or_congr_right (and_congr_right fun _ => exists_congr fun b => and_congr_right fun hb =>
    and_congr_left fun _ => not_congr (exists_congr fun i => and_congr_right fun hm => ?_))
  have := hw b i hb (at_append (p := [.str "Parameters", .str n]) hat (at_dict_one.2 hm))
  constructor
  · rintro ⟨h1, h2⟩
    exact ⟨h1, by omega⟩
  · rintro ⟨h1, h2⟩
    exact ⟨h1, by omega⟩

/-- (C75) the rule reports exactly what is wrong, where no bound of a mask is between 129 and 256 -/
theorem C75_exact_partial {fltOk : String → Bool} {t : Val} (h : PlainCidr t) (hm : NoWideMask t) :
    ∃ res, cidrRule fltOk t (.dict []) = .ok res ∧ ∀ p, p ∈ res ↔
      BadCall "Fn::Cidr" BadCidr t p ∨ (∃ n, CountRef t n ∧ BadNumber t n 256 p) ∨ (∃ n, MaskRef t n ∧ BadNumber t n 128 p) := by
  obtain ⟨res, hr, h'⟩ := C75_reports (fltOk := fltOk) h
  refine ⟨res, hr, fun p => ?_⟩
  rw [h' p]
  refine or_congr_right (or_congr_right (exists_congr fun n => and_congr_right fun hn => badNumber_128 fun b i hb hat => hm n b i hn hb hat))

/-- (C75) the statement for all templates -/
def C75_statement : Prop := ∀ (fltOk : String → Bool) (t : Val), t.WF → ∃ res, cidrRule fltOk t (.dict []) = .ok res ∧ ∀ p, p ∈ res ↔
  BadCall "Fn::Cidr" BadCidr t p ∨ (∃ n, CountRef t n ∧ BadNumber t n 256 p) ∨ (∃ n, MaskRef t n ∧ BadNumber t n 128 p)

/-- (C75) every call without a mask is reported at the mask it does not have -/
theorem C75_two_reported {fltOk : String → Bool} {t : Val} (hw : t.WF) {q : Path} {b c : Val}
    (h : At t (q ++ [.str "Fn::Cidr"]) (.list [b, c])) {res : List Path} (hr : cidrRule fltOk t (.dict []) = .ok res) :
    q ++ [.str "Fn::Cidr"] ++ [.int 2] ∈ res := by
  unfold cidrRule at hr
  split at hr
  · cases hr
  · rename_i a ha
    split at hr
    · cases hr
    · split at hr
      · cases hr
      · cases hr
        refine List.mem_append_left _ (List.mem_append_left _ ?_)
        exact (mem_collectM ha).2 ⟨_, ((C27_search_partial "Fn::Cidr" t hw).1 _ _).2 ⟨h, q, rfl⟩, _, rfl, by simp⟩

/-- (C75) the statement fails for a call without a mask -/
theorem C75_violated : ¬ C75_statement := by
  intro h
  have hw : (Val.dict [(.str "Fn::Cidr", .list [.str "10.0.0.0/8", .int 4])]).WF := by simp [Val.WF, Val.WFDict, Val.WFList]
  obtain ⟨res, hr, hp⟩ := h (fun _ => false) (.dict [(.str "Fn::Cidr", .list [.str "10.0.0.0/8", .int 4])]) hw
  have hs := (C27_search_partial "Fn::Cidr" _ hw).1
  have hbad := (hp _).1 (C75_two_reported hw (q := []) (.key List.mem_cons_self .here) hr)
  rcases hbad with ⟨q, v, s, hat, hb, e⟩ | ⟨n, -, fs, -, ⟨-, e⟩ | ⟨-, b, -, -, e⟩⟩ | ⟨n, -, fs, -, ⟨-, e⟩ | ⟨-, b, -, -, e⟩⟩
  · have h1 := (hs _ v).2 ⟨hat, q, rfl⟩
    have h2 : searchDeepKeys "Fn::Cidr" (.dict [(.str "Fn::Cidr", .list [.str "10.0.0.0/8", .int 4])]) (.dict []) =
        [([.str "Fn::Cidr"], .list [.str "10.0.0.0/8", .int 4])] := rfl
    rw [h2, List.mem_singleton] at h1
    injection h1 with e1 e2
    subst e2
    rw [e1] at e hb
    have : s = [.int 2] := by
      have := List.append_cancel_left (as := [Key.str "Fn::Cidr"]) (bs := [.int 2]) (cs := s) e
      exact this.symm
    subst this
    generalize e3 : Val.list [.str "10.0.0.0/8", .int 4] = w at hb
    generalize e4 : ([.int 2] : Path) = s' at hb
    cases hb with
    | size _ _ => cases e4
    | block _ _ => cases e4
    | count _ _ => cases e4
    | mask _ => cases e3
  all_goals simp at e

/-- (C75) a text for a bound, as YAML users may well write, makes the rule fail -/
theorem C75_raises {fltOk : String → Bool} {t : Val} (hw : t.WF) {n s : String} (h : CountRef t n)
    {fs : List (Key × Val)} (hat : At t [.str "Parameters", .str n] (.dict fs)) (hty : (.str "Type", .str "Number") ∈ fs)
    (hb : (.str "MinValue", .str s) ∈ fs) (hs : s ≠ "") : ∀ res, cidrRule fltOk t (.dict []) ≠ .ok res := by
  intro res hr
  obtain ⟨q, b, r, hcall, hlen⟩ := h
  unfold cidrRule at hr
  split at hr
  · cases hr
  · split at hr
    · cases hr
    · rename_i c hc
      have hmem : Val.str n ∈ (searchDeepKeys "Fn::Cidr" t (.dict [])).flatMap (fun f => cidrCounts f.2) :=
        List.mem_flatMap.2 ⟨_, ((C27_search_partial "Fn::Cidr" t hw).1 _ _).2 ⟨hcall, q, rfl⟩, cidrCounts_mem.2 ⟨b, r, rfl, hlen⟩⟩
      obtain ⟨l, hl⟩ := collectM_each hc _ hmem
      obtain ⟨ps, h1, h2⟩ := at_split (p := [.str "Parameters"]) (q := [.str n]) hat
      cases h1 with
      | @key kvs _ _ _ _ hm h1 =>
        cases h1
        generalize e : ps = ps' at h2
        cases h2 with
        | @key ps _ _ _ _ hm2 h2 =>
          cases h2
          subst e
          have hwp : (Val.dict ps).WF := at_wf (.key hm .here) hw
          have hwf := wf_fields (at_wf hat hw)
          have htr : (Val.dict ps).truthy = true := by cases ps with | nil => cases hm2 | cons _ _ => rfl
          have htf : (Val.dict fs).truthy = true := by cases fs with | nil => cases hty | cons _ _ => rfl
          have hbnd : cidrBound fltOk (.str s) = .error (.typeError "'<' not supported") := by
            unfold cidrBound
            rw [if_pos (by simp [Val.truthy, hs])]
          unfold cidrParameter at hl
          simp [Val.getD, toKey, dlookup_of_mem (wf_fields hw) hm, itemsOf, htr, dlookup_of_mem (wf_fields hwp) hm2, htf,
            dlookup_of_mem hwf hty, dlookup_of_mem hwf hb, hbnd] at hl

/-- a template with a good call, a bad one and parameters -/
def exCidr (maxMask : Int) : Val :=
  .dict [(.str "Parameters", .dict [
      (.str "N", .dict [(.str "Type", .str "Number"), (.str "MinValue", .int 0), (.str "MaxValue", .int 300)]),
      (.str "M", .dict [(.str "Type", .str "Number"), (.str "MinValue", .int 4), (.str "MaxValue", .int maxMask)])]),
    (.str "a", .dict [(.str "Fn::Cidr", .list [.str "10.0.0.0/8", .dict [(.str "Ref", .str "N")], .dict [(.str "Ref", .str "M")]])]),
    (.str "b", .dict [(.str "Fn::Cidr", .list [.str "10.0.0.0/88", .str "1", .int 8])])]

theorem exCidr_wf (k : Int) : (exCidr k).WF := by simp [exCidr, Val.WF, Val.WFDict, Val.WFList]

example : cidrRule (fun _ => false) (exCidr 16) (.dict []) = .ok [[.str "b", .str "Fn::Cidr", .int 0], [.str "b", .str "Fn::Cidr", .int 1],
    [.str "Parameters", .str "N", .str "MinValue"], [.str "Parameters", .str "N", .str "MaxValue"]] := by decide +kernel

theorem exCidr_calls {k : Int} : ∀ q v, At (exCidr k) (q ++ [.str "Fn::Cidr"]) v →
    v = .list [.str "10.0.0.0/8", .dict [(.str "Ref", .str "N")], .dict [(.str "Ref", .str "M")]] ∨
    v = .list [.str "10.0.0.0/88", .str "1", .int 8] :=
  found_all (exCidr_wf k) (P := fun v => v = .list [.str "10.0.0.0/8", .dict [(.str "Ref", .str "N")], .dict [(.str "Ref", .str "M")]] ∨
    v = .list [.str "10.0.0.0/88", .str "1", .int 8])
    (vs := [.list [.str "10.0.0.0/8", .dict [(.str "Ref", .str "N")], .dict [(.str "Ref", .str "M")]],
      .list [.str "10.0.0.0/88", .str "1", .int 8]]) rfl (by simp)

theorem exCidr_count {k : Int} {n : String} (h : CountRef (exCidr k) n) : n = "N" := by
  obtain ⟨q, b, r, hat, -⟩ := h
  rcases exCidr_calls q _ hat with e | e
  · cases e; rfl
  · cases e

theorem exCidr_mask {k : Int} {n : String} (h : MaskRef (exCidr k) n) : n = "M" := by
  obtain ⟨q, b, c, hat⟩ := h
  rcases exCidr_calls q _ hat with e | e
  · cases e; rfl
  · cases e

theorem exCidr_fields {k : Int} {n : String} (h : CountRef (exCidr k) n ∨ MaskRef (exCidr k) n) :
    ∃ i j : Int, At (exCidr k) [.str "Parameters", .str n]
      (.dict [(.str "Type", .str "Number"), (.str "MinValue", .int i), (.str "MaxValue", .int j)]) ∧ (MaskRef (exCidr k) n → i = 4 ∧ j = k) := by
  rcases h with h | h
  · have := exCidr_count h
    subst this
    refine ⟨0, 300, .key List.mem_cons_self (.key List.mem_cons_self .here), fun h => ?_⟩
    exact absurd (exCidr_mask h) (by decide)
  · have := exCidr_mask h
    subst this
    exact ⟨4, k, .key List.mem_cons_self (.key (List.mem_cons_of_mem _ List.mem_cons_self) .here), fun _ => ⟨rfl, rfl⟩⟩

theorem exCidr_bounds {k : Int} {n b : String} {v : Val} (h : CountRef (exCidr k) n ∨ MaskRef (exCidr k) n) (hb : b ∈ ["MinValue", "MaxValue"])
    (hv : At (exCidr k) [.str "Parameters", .str n, .str b] v) : ∃ i, v = .int i ∧ (MaskRef (exCidr k) n → i = 4 ∨ i = k) := by
  obtain ⟨i, j, h1, h2⟩ := exCidr_fields h
  obtain ⟨u, h3, h4⟩ := at_split (p := [.str "Parameters", .str n]) (q := [.str b]) hv
  cases at_det (exCidr_wf k) h1 h3
  have h4 := at_dict_one.1 h4
  simp only [List.mem_cons, List.not_mem_nil, or_false, Prod.mk.injEq, Key.str.injEq] at h4 hb
  rcases h4 with ⟨rfl, rfl⟩ | ⟨rfl, rfl⟩ | ⟨rfl, rfl⟩
  · simp at hb
  · exact ⟨_, rfl, fun h => .inl (h2 h).1⟩
  · exact ⟨_, rfl, fun h => .inr (h2 h).2⟩

theorem exCidr_plain (k : Int) : PlainCidr (exCidr k) where
  wf := exCidr_wf k
  object := ⟨_, rfl⟩
  calls := by
    intro q v hat
    rcases exCidr_calls q v hat with rfl | rfl
    · refine ⟨fun b c e => (by simp at e), ?_⟩
      rintro b c m e
      cases e
      refine ⟨?_, fun _ e => (by cases e), ⟨fun _ e => (by cases e; rfl), fun _ e => (by cases e), fun r e => (by cases e; exact ⟨_, rfl⟩)⟩,
        ⟨fun _ e => (by cases e; rfl), fun _ e => (by cases e), fun r e => (by cases e; exact ⟨_, rfl⟩)⟩⟩
      rintro s e ⟨l, h⟩
      cases e
      have := congrArg List.getLast? h
      simp at this
    · refine ⟨fun b c e => (by simp at e), ?_⟩
      rintro b c m e
      cases e
      refine ⟨?_, fun _ e => (by cases e), ⟨fun _ e => (by cases e), fun _ e => (by cases e), fun r e => (by cases e)⟩,
        ⟨fun _ e => (by cases e), fun _ e => (by cases e), fun r e => (by cases e)⟩⟩
      rintro s e ⟨l, h⟩
      cases e
      have := congrArg List.getLast? h
      simp at this
  parameters := by
    intro v hv
    cases at_det (exCidr_wf k) (.key List.mem_cons_self .here) hv
    exact ⟨_, rfl⟩
  parameter := by
    intro n v h hv
    obtain ⟨i, j, h1, -⟩ := exCidr_fields h
    cases at_det (exCidr_wf k) h1 hv
    exact ⟨_, rfl, by simp⟩
  bounds := by
    intro n b v h hb hv
    obtain ⟨i, rfl, -⟩ := exCidr_bounds h hb hv
    exact ⟨_, rfl⟩

example : NoWideMask (exCidr 16) := by
  intro n b i h hb hat
  obtain ⟨j, e, h'⟩ := exCidr_bounds (.inr h) hb hat
  cases e
  rcases h' h with rfl | rfl <;> omega

/-- (C75) a mask parameter may have a bound of 200, which no mask can be -/
theorem C75_mask_violated : MaskRef (exCidr 200) "M" ∧ BadNumber (exCidr 200) "M" 128 [.str "Parameters", .str "M", .str "MaxValue"] ∧
    ∃ res, cidrRule (fun _ => false) (exCidr 200) (.dict []) = .ok res ∧ [.str "Parameters", .str "M", .str "MaxValue"] ∉ res := by
  refine ⟨⟨[.str "a"], .str "10.0.0.0/8", .dict [(.str "Ref", .str "N")],
    .key (List.mem_cons_of_mem _ List.mem_cons_self) (.key List.mem_cons_self .here)⟩,
    ⟨_, .key List.mem_cons_self (.key (List.mem_cons_of_mem _ List.mem_cons_self) .here), .inr ⟨List.mem_cons_self, "MaxValue", by simp, ?_, rfl⟩⟩, ?_⟩
  · rintro ⟨i, h, h1, h2⟩
    simp at h
    omega
  · exact ⟨[[.str "b", .str "Fn::Cidr", .int 0], [.str "b", .str "Fn::Cidr", .int 1],
      [.str "Parameters", .str "N", .str "MinValue"], [.str "Parameters", .str "N", .str "MaxValue"]], by decide +kernel, by decide⟩

/-- (C75) objects with several keys or none pass as blocks, counts and masks, and Booleans as counts and masks -/
theorem C75_odd_accepted {b c m : Val} (hb : ∃ kvs, b = .dict kvs ∧ kvs.length ≠ 1)
    (hc : (∃ kvs, c = .dict kvs ∧ kvs.length ≠ 1) ∨ ∃ x, c = .bool x) (hm : (∃ kvs, m = .dict kvs ∧ kvs.length ≠ 1) ∨ ∃ x, m = .bool x) (q : Path) :
    cidrShape q (.list [b, c, m]) = .ok [] := by
  have block : ∀ {v : Val}, (∃ kvs, v = .dict kvs ∧ kvs.length ≠ 1) → cidrBlock v = true ∧ cidrNumber v = true := by
    rintro v ⟨kvs, rfl, h⟩
    match kvs, h with
    | [], _ => exact ⟨rfl, rfl⟩
    | _ :: _ :: _, _ => exact ⟨rfl, rfl⟩
  have number : ∀ {v : Val}, ((∃ kvs, v = .dict kvs ∧ kvs.length ≠ 1) ∨ ∃ x, v = .bool x) → cidrNumber v = true := by
    rintro v (h | ⟨x, rfl⟩)
    · exact (block h).2
    · rfl
  simp only [cidrShape, (block hb).1, number hc, number hm]
  rfl

example : ∃ kvs, (Val.dict []) = .dict kvs ∧ kvs.length ≠ 1 := ⟨[], rfl, by simp⟩

end CfnLint
