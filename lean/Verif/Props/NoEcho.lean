import Verif.Model.NoEcho
import Verif.Spec.NoEcho
import Verif.Props.Sub
import Verif.Props.Limits
import Verif.Lemmas.Finds
/-
C85: secret parameters in the metadata of resources.
-/
namespace CfnLint
open Spec

theorem boolCompareTrue_iff {v : Val} : boolCompareTrue v = true ↔ SaysTrue v := by
  cases v with
  | bool b =>
    cases b
    · simp only [boolCompareTrue]
      exact ⟨fun h => (by cases h), fun h => (by cases h)⟩
    · exact ⟨fun _ => .bool, fun _ => rfl⟩
  | str s =>
    simp only [boolCompareTrue, lower, beq_iff_eq]
    constructor
    · intro h
      have := congrArg String.toList h
      exact .text (by simpa using this)
    · intro h
      cases h with
      | text h => rw [h]
  | _ => exact ⟨fun h => (by cases h), fun h => (by cases h)⟩

/-- the secret parameters -/
theorem mem_noEchoParams {t : Val} (hw : t.WF) (hp : Entries t "Parameters" (fun v => ∃ d, v = .dict d)) :
    ∃ ps, noEchoParams t = .ok ps ∧ ∀ k, k ∈ ps ↔ SecretParam t k := by
  obtain ⟨d, hd, hP, hn, hl⟩ := entries_section hw hp
  have hi : parameterItems t = .ok d := by
    unfold parameterItems
    rw [hd]
    cases d with
    | nil => rfl
    | cons kv d => simp [Val.truthy, itemsOf]
  obtain ⟨ps, e, hps⟩ := collectM_spec (f := noEchoOne) (as := d)
    (P := fun kv k => k = kv.1 ∧ ∃ v, look kv.2 [.str "NoEcho"] = some v ∧ SaysTrue v) (fun kv hkv => by
      obtain ⟨⟨r, hr⟩, _⟩ := hP kv hkv
      unfold noEchoOne
      simp only [hr, Val.getD, look]
      cases hx : dlookup (Key.str "NoEcho") r with
      | none => exact ⟨[], rfl, fun k => ⟨fun h => (by cases h), fun ⟨_, v, h, _⟩ => (by cases h)⟩⟩
      | some v =>
        refine ⟨_, rfl, fun k => ?_⟩
        simp only [Option.getD_some]
        by_cases hb : boolCompareTrue v = true
        · rw [if_pos hb, List.mem_singleton]
          exact ⟨fun h => ⟨h, v, rfl, boolCompareTrue_iff.1 hb⟩, fun h => h.1⟩
        · rw [if_neg hb]
          exact ⟨fun h => (by cases h), fun ⟨_, w, h, hs⟩ => absurd (boolCompareTrue_iff.2 (by cases h; exact hs)) hb⟩)
  refine ⟨ps, by unfold noEchoParams; rw [hi]; exact e, fun k => ?_⟩
  rw [hps]
  unfold SecretParam
  constructor
  · rintro ⟨⟨k', v'⟩, hm, e, v, h, hs⟩
    subst e
    exact ⟨v, (hl _ _ v).2 ⟨v', hm, h⟩, hs⟩
  · rintro ⟨v, h, hs⟩
    obtain ⟨v', hm, h⟩ := (hl k _ v).1 h
    exact ⟨(k, v'), hm, rfl, v, h, hs⟩

theorem toVal_str {k : Key} {s : String} : k.toVal = .str s ↔ k = .str s := by
  cases k <;> simp [Key.toVal]

/-- places in the metadata of a resource -/
theorem inMetadata_path {p : Path} {w : Val} (h : 3 ≤ p.length) :
    inMetadata (fullPath (p, w)) = true ↔ ∃ name q, p = metadataPath name q := by
  match p, h with
  | a :: b :: c :: q, _ =>
    simp only [inMetadata, fullPath, metadataPath, List.map_cons, List.cons_append, List.getElem?_cons_zero, List.getElem?_cons_succ,
      Bool.and_eq_true, beq_iff_eq, Option.some.injEq, toVal_str, List.cons.injEq]
    constructor
    · rintro ⟨rfl, rfl⟩; exact ⟨b, q, rfl, rfl, rfl, rfl⟩
    · rintro ⟨_, _, h1, _, h2, _⟩; exact ⟨h1, h2⟩

theorem metadata_last {p : Path} {text : String} (ht : text ≠ "Metadata") (hp : ∃ q, p = q ++ [Key.str text]) :
    (∃ name q, p = metadataPath name (q ++ [.str text])) ↔ ∃ name q, p = metadataPath name q := by
  constructor
  · rintro ⟨n, q, h⟩; exact ⟨n, _, h⟩
  · rintro ⟨n, q, h⟩
    obtain ⟨q', e⟩ := hp
    rcases List.eq_nil_or_concat q with rfl | ⟨q1, x, rfl⟩
    · have h2 : [.str "Resources", n] ++ [Key.str "Metadata"] = q' ++ [.str text] := h.symm.trans e
      have h3 := (List.append_inj' h2 rfl).2
      simp at h3
      exact absurd h3.symm ht
    · have h2 : (.str "Resources" :: n :: .str "Metadata" :: q1) ++ [x] = q' ++ [.str text] := by
        rw [← e, h]; simp [metadataPath]
      have h3 := (List.append_inj' h2 rfl).2
      simp at h3
      subst h3
      exact ⟨n, q1, by rw [h]; simp⟩

theorem mem_noEchoRef {ps : List Key} {p : Path} {w : Val} {full : List Val} {k : Key} (hp : ∃ q, p = q ++ [.str "Ref"]) :
    (full, k) ∈ noEchoRef ps (p, w) ↔
      full = p.map Key.toVal ++ [w] ∧ k ∈ ps ∧ toKey w = some k ∧ ∃ name q, p = metadataPath name (q ++ [.str "Ref"]) := by
  have hq := metadata_last (by decide) hp
  unfold noEchoRef
  simp only
  cases hk : toKey w with
  | none => simp
  | some k' =>
    dsimp only
    by_cases h1 : k' ∈ ps
    · rw [if_pos h1]
      by_cases h2 : 3 < (fullPath (p, w)).length
      · rw [if_pos h2]
        have h2' : 3 ≤ p.length := by simp [fullPath] at h2; omega
        by_cases h3 : inMetadata (fullPath (p, w)) = true
        · rw [if_pos h3, List.mem_singleton, hq]
          have := (inMetadata_path h2').1 h3
          constructor
          · intro e; cases e; exact ⟨rfl, h1, rfl, this⟩
          · rintro ⟨rfl, _, e, _⟩; cases e; rfl
        · rw [if_neg h3]
          refine ⟨fun h => (by cases h), fun h => absurd ((inMetadata_path h2').2 (hq.1 h.2.2.2)) h3⟩
      · rw [if_neg h2]
        refine ⟨fun h => (by cases h), fun h => ?_⟩
        obtain ⟨n, q, e⟩ := h.2.2.2
        rw [e] at h2
        simp [fullPath, metadataPath] at h2
    · rw [if_neg h1]
      refine ⟨fun h => (by cases h), fun h => ?_⟩
      have e := h.2.2.1
      cases e
      exact absurd h.2.1 h1

theorem mem_noEchoSub {ps : List Key} {p : Path} {w : Val} {full : List Val} {k : Key} (hp : ∃ q, p = q ++ [.str "Fn::Sub"]) :
    (full, k) ∈ noEchoSub ps (p, w) ↔
      full = p.map Key.toVal ∧ k ∈ ps ∧ (∃ s x, w = .str s ∧ x ∈ subParams s ∧ k = .str x) ∧
        ∃ name q, p = metadataPath name (q ++ [.str "Fn::Sub"]) := by
  have hq := metadata_last (by decide) hp
  cases w with
  | str s =>
    simp only [noEchoSub, List.mem_flatMap]
    have hx : ∀ x ∈ subParams s, (full, k) ∈ noEchoVar ps (p, .str s) x ↔
        full = p.map Key.toVal ∧ k ∈ ps ∧ k = .str x ∧ ∃ name q, p = metadataPath name q := by
      intro x hx
      unfold noEchoVar
      by_cases h1 : Key.str x ∈ ps
      · rw [if_pos h1]
        by_cases h2 : 2 < (fullPath (p, .str s)).length
        · rw [if_pos h2]
          by_cases h4 : 3 ≤ p.length
          · by_cases h3 : inMetadata (fullPath (p, .str s)) = true
            · rw [if_pos h3, List.mem_singleton]
              have := (inMetadata_path h4).1 h3
              constructor
              · intro e; cases e; exact ⟨rfl, h1, rfl, this⟩
              · rintro ⟨rfl, _, rfl, _⟩; rfl
            · rw [if_neg h3]
              exact ⟨fun h => (by cases h), fun h => absurd ((inMetadata_path h4).2 h.2.2.2) h3⟩
          · have h3 : ¬ inMetadata (fullPath (p, .str s)) = true := by
              intro h3
              have h5 : p.length = 2 := by simp [fullPath] at h2; omega
              obtain ⟨a, b, rfl⟩ := List.length_eq_two.1 h5
              simp [inMetadata, fullPath] at h3
              rw [h3.2] at hx
              have h6 : subParams "Metadata" = [] := by decide +kernel
              rw [h6] at hx
              cases hx
            rw [if_neg h3]
            refine ⟨fun h => (by cases h), fun h => ?_⟩
            obtain ⟨n, q, e⟩ := h.2.2.2
            rw [e] at h4
            simp [metadataPath] at h4
        · rw [if_neg h2]
          refine ⟨fun h => (by cases h), fun h => ?_⟩
          obtain ⟨n, q, e⟩ := h.2.2.2
          rw [e] at h2
          simp [fullPath, metadataPath] at h2
      · rw [if_neg h1]
        refine ⟨fun h => (by cases h), fun h => ?_⟩
        have e := h.2.2.1
        subst e
        exact absurd h.2.1 h1
    rw [hq]
    constructor
    · rintro ⟨x, hm, h⟩
      obtain ⟨h1, h2, h3, h4⟩ := (hx x hm).1 h
      exact ⟨h1, h2, ⟨s, x, rfl, hm, h3⟩, h4⟩
    · rintro ⟨h1, h2, ⟨s', x, e, hm, h3⟩, h4⟩
      cases e
      exact ⟨x, hm, (hx x hm).2 ⟨h1, h2, h3, h4⟩⟩
  | _ =>
    simp only [noEchoSub]
    exact ⟨fun h => (by cases h), fun ⟨_, _, ⟨_, _, e, _⟩, _⟩ => by cases e⟩

theorem mem_deepKeys {text : String} {t g : Val} {p : Path} {w : Val} :
    (p, w) ∈ searchDeepKeys text t g ↔ (∃ q, p = q ++ [.str text]) ∧ (At t p w ∨ At g p w) := by
  unfold searchDeepKeys
  rw [List.mem_append, mem_searchVal, mem_searchVal]
  simp only [List.nil_append, exists_eq_left', Found]
  constructor
  · rintro (⟨h2, h1⟩ | ⟨h2, h1⟩)
    · exact ⟨h1, .inl h2⟩
    · exact ⟨h1, .inr h2⟩
  · rintro ⟨h1, h2 | h2⟩
    · exact .inl ⟨h2, h1⟩
    · exact .inr ⟨h2, h1⟩

/-- **C85**: exactly what W4002 reports, for every template whose parameters are objects, `Globals` included: a `Ref` in the metadata of a
resource, at the place of the `Ref` with the name appended, and a variable of a text of `Fn::Sub`, at the place of the `Fn::Sub` -/
theorem C85_exact {t g : Val} (hw : t.WF) (hp : Entries t "Parameters" (fun v => ∃ d, v = .dict d)) :
    ∃ l, noEchoRule t g = .ok l ∧ ∀ full k, (full, k) ∈ l ↔ SecretParam t k ∧ ∃ name q,
      (∃ w, (At t (metadataPath name (q ++ [.str "Ref"])) w ∨ At g (metadataPath name (q ++ [.str "Ref"])) w) ∧ toKey w = some k ∧
        full = (metadataPath name (q ++ [.str "Ref"])).map Key.toVal ++ [w]) ∨
      ∃ s x, (At t (metadataPath name (q ++ [.str "Fn::Sub"])) (.str s) ∨ At g (metadataPath name (q ++ [.str "Fn::Sub"])) (.str s)) ∧
        x ∈ subParams s ∧ k = .str x ∧ full = (metadataPath name (q ++ [.str "Fn::Sub"])).map Key.toVal := by
  obtain ⟨ps, e, hps⟩ := mem_noEchoParams hw hp
  have key : ∀ full k, (full, k) ∈ (searchDeepKeys "Ref" t g).flatMap (noEchoRef ps) ++
      (searchDeepKeys "Fn::Sub" t g).flatMap (noEchoSub ps) ↔ SecretParam t k ∧ ∃ name q,
      (∃ w, (At t (metadataPath name (q ++ [.str "Ref"])) w ∨ At g (metadataPath name (q ++ [.str "Ref"])) w) ∧ toKey w = some k ∧
        full = (metadataPath name (q ++ [.str "Ref"])).map Key.toVal ++ [w]) ∨
      ∃ s x, (At t (metadataPath name (q ++ [.str "Fn::Sub"])) (.str s) ∨ At g (metadataPath name (q ++ [.str "Fn::Sub"])) (.str s)) ∧
        x ∈ subParams s ∧ k = .str x ∧ full = (metadataPath name (q ++ [.str "Fn::Sub"])).map Key.toVal := by
    intro full k
    simp only [List.mem_append, List.mem_flatMap, Prod.exists]
    constructor
    · rintro (⟨p, w, hm, h⟩ | ⟨p, w, hm, h⟩)
      · obtain ⟨hr, ha⟩ := mem_deepKeys.1 hm
        obtain ⟨h1, h2, h3, n, q, rfl⟩ := (mem_noEchoRef hr).1 h
        exact ⟨(hps k).1 h2, n, q, .inl ⟨w, ha, h3, h1⟩⟩
      · obtain ⟨hr, ha⟩ := mem_deepKeys.1 hm
        obtain ⟨h1, h2, ⟨s, x, rfl, h3, h4⟩, n, q, rfl⟩ := (mem_noEchoSub hr).1 h
        exact ⟨(hps k).1 h2, n, q, .inr ⟨s, x, ha, h3, h4, h1⟩⟩
    · rintro ⟨hs, n, q, ⟨w, ha, h3, h1⟩ | ⟨s, x, ha, h3, h4, h1⟩⟩
      · have hr : ∃ q', metadataPath n (q ++ [.str "Ref"]) = q' ++ [.str "Ref"] := ⟨metadataPath n q, rfl⟩
        exact .inl ⟨_, w, mem_deepKeys.2 ⟨hr, ha⟩, (mem_noEchoRef hr).2 ⟨h1, (hps k).2 hs, h3, n, q, rfl⟩⟩
      · have hr : ∃ q', metadataPath n (q ++ [.str "Fn::Sub"]) = q' ++ [.str "Fn::Sub"] := ⟨metadataPath n q, rfl⟩
        exact .inr ⟨_, .str s, mem_deepKeys.2 ⟨hr, ha⟩, (mem_noEchoSub hr).2 ⟨h1, (hps k).2 hs, ⟨s, x, rfl, h3, h4⟩, n, q, rfl⟩⟩
  unfold noEchoRule
  rw [e]
  cases ps with
  | nil =>
    refine ⟨[], rfl, fun full k => ⟨fun h => (by cases h), fun h => ?_⟩⟩
    exact absurd ((hps k).2 h.1) (by simp)
  | cons a as => exact ⟨_, rfl, key⟩

/-- a finding about the resource and the parameter -/
def EchoReport (l : List (List Val × Key)) (name : Key) (x : String) : Prop :=
  ∃ q, ((metadataPath name q).map Key.toVal, .str x) ∈ l ∨ ((metadataPath name q).map Key.toVal ++ [.str x], .str x) ∈ l

/-- **C85** in full: for every template whose parameters are objects and whose texts of `Fn::Sub` are well formed, the rule reports the
parameter for a resource exactly when the parameter is secret and the metadata of the resource contains its value -/
def C85_statement : Prop :=
  ∀ t : Val, t.WF → Entries t "Parameters" (fun v => ∃ d, v = .dict d) → SubShape t →
    ∃ l, noEchoRule t (.dict []) = .ok l ∧ ∀ name x, EchoReport l name x ↔ SecretParam t (.str x) ∧ ShowsParam t name x

theorem at_empty {p : Path} {w : Val} (h : At (.dict []) p w) (hp : p ≠ []) : False := by
  cases h with
  | here => exact hp rfl
  | key hm _ => cases hm

theorem toVal_map_inj {p q : Path} (h : p.map Key.toVal = q.map Key.toVal) : p = q := by
  refine (List.map_inj_right ?_).1 h
  intro a b e
  cases a <;> cases b <;> simp [Key.toVal] at e <;> simp [e]

/-- **C85**: what is reported, short of the texts of `Fn::Sub` that come with an object of variables -/
theorem C85_reports {t : Val} (hw : t.WF) (hp : Entries t "Parameters" (fun v => ∃ d, v = .dict d)) (hs : SubShape t) :
    ∃ l, noEchoRule t (.dict []) = .ok l ∧ ∀ name x, EchoReport l name x ↔ SecretParam t (.str x) ∧
      ((∃ q, At t (metadataPath name (q ++ [.str "Ref"])) (.str x)) ∨
        ∃ q s, At t (metadataPath name (q ++ [.str "Fn::Sub"])) (.str s) ∧ SubVar s x) := by
  obtain ⟨l, e, hl⟩ := C85_exact (g := .dict []) hw hp
  have hv : ∀ {p s x}, At t (p ++ [.str "Fn::Sub"]) (.str s) → (x ∈ subParams s ↔ SubVar s x) := by
    intro p s x ha
    obtain ⟨s', ns, hns, h⟩ := hs p _ ha
    have e : s' = s := by
      rcases h with h | ⟨m, h⟩
      · exact (by simpa using h.symm)
      · cases h
    subst e
    exact subVar_found hns
  have hat : ∀ {p w}, p ≠ [] → (At t p w ∨ At (.dict []) p w) → At t p w := by
    rintro p w hne (h | h)
    · exact h
    · exact (at_empty h hne).elim
  have sound : ∀ {full n q x}, (full, Key.str x) ∈ l → (full = (metadataPath n q).map Key.toVal ∨
      full = (metadataPath n q).map Key.toVal ++ [.str x]) → SecretParam t (.str x) ∧
      ((∃ q, At t (metadataPath n (q ++ [.str "Ref"])) (.str x)) ∨
        ∃ q s, At t (metadataPath n (q ++ [.str "Fn::Sub"])) (.str s) ∧ SubVar s x) := by
    intro full n q x hm hfull
    obtain ⟨hsec, n', q', ⟨w, ha, hk, hf⟩ | ⟨s, y, ha, hy, hk, hf⟩⟩ := (hl _ _).1 hm
    · have hn : n' = n := by
        have h1 : full[1]? = some n'.toVal := by rw [hf]; rfl
        have h2 : full[1]? = some n.toVal := by rcases hfull with h | h <;> (rw [h]; rfl)
        have h3 := Option.some.inj (h1.symm.trans h2)
        have := toVal_map_inj (p := [n']) (q := [n]) (by simp [h3])
        simpa using this
      subst hn
      have hw' : w = .str x := by
        cases w with
        | bool b => simp [toKey] at hk
        | _ => simp_all [toKey]
      subst hw'
      exact ⟨hsec, .inl ⟨q', hat (by simp [metadataPath]) ha⟩⟩
    · have hn : n' = n := by
        have h1 : full[1]? = some n'.toVal := by rw [hf]; rfl
        have h2 : full[1]? = some n.toVal := by rcases hfull with h | h <;> (rw [h]; rfl)
        have h3 := Option.some.inj (h1.symm.trans h2)
        have := toVal_map_inj (p := [n']) (q := [n]) (by simp [h3])
        simpa using this
      subst hn
      cases hk
      have ha' := hat (by simp [metadataPath]) ha
      exact ⟨hsec, .inr ⟨q', s, ha', (hv (p := metadataPath n' q') ha').1 hy⟩⟩
  refine ⟨l, e, fun n x => ⟨?_, ?_⟩⟩
  · rintro ⟨q, h | h⟩
    · exact sound h (.inl rfl)
    · exact sound h (.inr rfl)
  · rintro ⟨hsec, ⟨q, h⟩ | ⟨q, s, h, hsv⟩⟩
    · exact ⟨_, .inr ((hl _ _).2 ⟨hsec, n, q, .inl ⟨.str x, .inl h, rfl, rfl⟩⟩)⟩
    · exact ⟨_, .inl ((hl _ _).2 ⟨hsec, n, q, .inr ⟨s, x, .inl h, (hv (p := metadataPath n q) h).2 hsv, rfl, rfl⟩⟩)⟩

/-- **C85**: every report is right -/
theorem C85_sound {t : Val} (hw : t.WF) (hp : Entries t "Parameters" (fun v => ∃ d, v = .dict d)) (hs : SubShape t) :
    ∃ l, noEchoRule t (.dict []) = .ok l ∧ ∀ name x, EchoReport l name x → SecretParam t (.str x) ∧ ShowsParam t name x := by
  obtain ⟨l, e, hl⟩ := C85_reports hw hp hs
  refine ⟨l, e, fun n x h => ?_⟩
  obtain ⟨h1, ⟨q, h⟩ | ⟨q, s, h, h2⟩⟩ := (hl n x).1 h
  · exact ⟨h1, .ref h⟩
  · exact ⟨h1, .sub h h2⟩

/-- **C85**, for templates whose metadata have no `Fn::Sub` with an object of variables -/
theorem C85_complete_partial {t : Val} (hw : t.WF) (hp : Entries t "Parameters" (fun v => ∃ d, v = .dict d)) (hs : SubShape t)
    (hm : ∀ name q xs, ¬ At t (metadataPath name (q ++ [.str "Fn::Sub"])) (.list xs)) :
    ∃ l, noEchoRule t (.dict []) = .ok l ∧ ∀ name x, EchoReport l name x ↔ SecretParam t (.str x) ∧ ShowsParam t name x := by
  obtain ⟨l, e, hl⟩ := C85_reports hw hp hs
  refine ⟨l, e, fun n x => ?_⟩
  rw [hl]
  refine and_congr_right fun _ => ⟨?_, ?_⟩
  · rintro (⟨q, h⟩ | ⟨q, s, h, h2⟩)
    · exact .ref h
    · exact .sub h h2
  · intro h
    cases h with
    | ref h => exact .inl ⟨_, h⟩
    | sub h h2 => exact .inr ⟨_, _, h, h2⟩
    | subMap h _ _ => exact absurd h (hm _ _ _)

/-- a secret parameter and a resource whose metadata are `v` -/
def exEcho (v : Val) : Val :=
  .dict [(.str "Parameters", .dict [(.str "P", .dict [(.str "Type", .str "String"), (.str "NoEcho", .str "True")])]),
    (.str "Resources", .dict [(.str "A", .dict [(.str "Type", .str "AWS::S3::Bucket"), (.str "Metadata", v)])])]

theorem exEcho_wf {v : Val} (h : v.WF) : (exEcho v).WF := by simp [exEcho, Val.WF, Val.WFDict, h]

theorem exEcho_params (v : Val) : Entries (exEcho v) "Parameters" (fun v => ∃ d, v = .dict d) := by
  refine ⟨⟨_, rfl⟩, ?_⟩
  intro w h
  simp [exEcho, look, dlookup] at h
  subst h
  exact ⟨_, rfl, by simp⟩

/-- the text `a${P}` with an object of variables that defines another one -/
def exEchoSub : Val := .dict [(.str "Fn::Sub", .list [.str "a${P}${B}", .dict [(.str "B", .str "b")]])]

theorem exEchoSub_text : SubText "a${P}${B}".toList [['P'], ['B']] := by
  have h : SubText ('a' :: '$' :: '{' :: ([] ++ (['P'] ++ ([] ++ '}' :: ('$' :: '{' :: ([] ++ (['B'] ++ ([] ++ '}' :: []))))))))
      [['P'], ['B']] := by
    refine .char (by simp) (.var (by simp [SubBlank]) ?_ (by simp) (by simp) (by simp [SubBlank])
      (.var (by simp [SubBlank]) ?_ (by simp) (by simp) (by simp [SubBlank]) .nil))
    · intro c hc; simp at hc; subst hc; decide
    · intro c hc; simp at hc; subst hc; decide
  exact h

/-- **C85**: a secret in the text of an `Fn::Sub` with an object of variables is not reported -/
theorem C85_list_missed : noEchoRule (exEcho exEchoSub) (.dict []) = .ok [] ∧ SecretParam (exEcho exEchoSub) (.str "P") ∧
    ShowsParam (exEcho exEchoSub) (.str "A") "P" := by
  refine ⟨by decide +kernel, ⟨.str "True", by decide +kernel, .text (by decide)⟩, ?_⟩
  refine .subMap (q := []) (s := "a${P}${B}") (m := [(.str "B", .str "b")]) ?_ ⟨_, exEchoSub_text, by simp⟩ (by simp)
  exact .key (List.mem_cons_of_mem _ List.mem_cons_self) (.key List.mem_cons_self
    (.key (List.mem_cons_of_mem _ List.mem_cons_self) (.key List.mem_cons_self .here)))

theorem exEcho_shape : SubShape (exEcho exEchoSub) := by
  intro q v h
  have hm : (q ++ [.str "Fn::Sub"], v) ∈ searchDeepKeys "Fn::Sub" (exEcho exEchoSub) (.dict []) := mem_deepKeys.2 ⟨⟨q, rfl⟩, .inl h⟩
  have e : searchDeepKeys "Fn::Sub" (exEcho exEchoSub) (.dict []) =
      [([.str "Resources", .str "A", .str "Metadata", .str "Fn::Sub"], .list [.str "a${P}${B}", .dict [(.str "B", .str "b")]])] := by
    decide +kernel
  rw [e, List.mem_singleton] at hm
  exact ⟨_, _, exEchoSub_text, .inr ⟨_, (Prod.mk.inj hm).2⟩⟩

theorem C85_violated : ¬ C85_statement := by
  intro h
  obtain ⟨l, e, hl⟩ := h (exEcho exEchoSub) (exEcho_wf (by simp [exEchoSub, Val.WF, Val.WFDict, Val.WFList])) (exEcho_params _) exEcho_shape
  rw [C85_list_missed.1] at e
  cases e
  obtain ⟨q, h | h⟩ := (hl (.str "A") "P").2 C85_list_missed.2 <;> cases h

/-! The hypotheses can be met, and the rule reports something. -/

example : noEchoRule (exEcho (.dict [(.str "x", .list [.dict [(.str "Ref", .str "P")]])])) (.dict []) =
    .ok [([.str "Resources", .str "A", .str "Metadata", .str "x", .int 0, .str "Ref", .str "P"], .str "P")] := by decide +kernel
example : noEchoRule (exEcho (.dict [(.str "Fn::Sub", .str "a${P}")])) (.dict []) =
    .ok [([.str "Resources", .str "A", .str "Metadata", .str "Fn::Sub"], .str "P")] := by decide +kernel
example : noEchoRule (exEcho (.str "${P}")) (.dict []) = .ok [] := by decide +kernel
example : SubShape (exEcho (.str "x")) := by
  intro q v h
  have hm : (q ++ [.str "Fn::Sub"], v) ∈ searchDeepKeys "Fn::Sub" (exEcho (.str "x")) (.dict []) := mem_deepKeys.2 ⟨⟨q, rfl⟩, .inl h⟩
  have e : searchDeepKeys "Fn::Sub" (exEcho (.str "x")) (.dict []) = [] := by decide +kernel
  rw [e] at hm
  cases hm

end CfnLint
