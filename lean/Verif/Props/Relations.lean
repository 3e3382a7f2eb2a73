import Verif.Model.Relations
import Verif.Spec.Relations
import Verif.Props.Availability
import Verif.Props.PropSets
import Verif.Props.Template
import Verif.Lemmas.Graph
/-
C63: W1001, references to resources that may not exist.
C64: E3005, the values of DependsOn.
C65: W3005, superfluous dependencies.
-/
namespace CfnLint
open Spec

/-- the conditions that decide whether what stands at `p` exists and whether a resource with condition `rc` does -/
def Concerned (t : Val) (p : Path) (rc : String) (c : String) : Prop := c = rc ∨ ∃ x, Requires t p c x

theorem requires_snoc {t : Val} {q : Path} {f : String} {k : Key} (hf : f ≠ "Fn::If") (hs : f ≠ "Resources") (ho : f ≠ "Outputs")
    {c : String} {x : Bool} : Requires t (q ++ [.str f] ++ [k]) c x ↔ Requires t (q ++ [.str f]) c x := by
  have hsplit : ∀ (q' : Path) (n : Key) (r : Path), q ++ [.str f] ++ [k] = q' ++ .str "Fn::If" :: n :: r →
      ∃ r', q ++ [.str f] = q' ++ .str "Fn::If" :: n :: r' := by
    intro q' n r h
    rcases List.eq_nil_or_concat r with rfl | ⟨r', y, rfl⟩
    · exfalso
      have h1 : q ++ [.str f] ++ [k] = (q' ++ [.str "Fn::If"]) ++ [n] := by simpa using h
      have h2 := (List.append_inj' h1 rfl).1
      have h3 := (List.append_inj' h2 rfl).2
      simp at h3
      exact hf h3
    · have h1 : q ++ [.str f] ++ [k] = (q' ++ .str "Fn::If" :: n :: r') ++ [y] := by simpa using h
      exact ⟨r', (List.append_inj' h1 rfl).1⟩
  constructor
  · intro h
    cases h with
    | yes h1 h2 => obtain ⟨r', h⟩ := hsplit _ _ _ h1; exact .yes h h2
    | no h1 h2 => obtain ⟨r', h⟩ := hsplit _ _ _ h1; exact .no h h2
    | entry h1 h2 h3 h4 =>
      cases q with
      | nil =>
        simp at h1
        rcases h2 with rfl | rfl
        · exact absurd h1.1 hs
        · exact absurd h1.1 ho
      | cons a q =>
        simp only [List.cons_append, List.cons.injEq] at h1
        obtain ⟨rfl, h1⟩ := h1
        cases q with
        | nil => simp at h1; exact .entry (r := []) (by simp [h1.1]) h2 h3 h4
        | cons b q =>
          simp only [List.cons_append, List.cons.injEq] at h1
          exact .entry (r := q ++ [.str f]) (by simp [h1.1]) h2 h3 h4
  · intro h
    cases h with
    | yes h1 h2 => exact .yes (r := _ ++ [k]) (by rw [h1]; simp; rfl) h2
    | no h1 h2 => exact .no (r := _ ++ [k]) (by rw [h1]; simp; rfl) h2
    | entry h1 h2 h3 h4 => exact .entry (r := _ ++ [k]) (by rw [h1]; simp; rfl) h2 h3 h4

theorem goodPath_snoc {t v : Val} {q : Path} {f : String} {k : Key} (hs : f ≠ "Resources") (ho : f ≠ "Outputs")
    (hk : k ≠ .str "Fn::If") (hp : GoodPath t (q ++ [.str f])) (hat : At t (q ++ [.str f]) v) :
    GoodPath t (q ++ [.str f] ++ [k]) where
  ne := by simp
  exists_ := ⟨v, by simpa using hat⟩
  last := by simpa using hk
  names := by
    intro q' c a b hpre h
    rcases List.prefix_concat_iff.1 hpre with h1 | h1
    · have := (List.append_inj' h1 rfl).2
      simp at this
      exact absurd this.symm hk
    · exact hp.names q' c a b h1 h
  entry := by
    intro sec name r h1 h2
    cases q with
    | nil =>
      simp at h1
      rcases h2 with rfl | rfl
      · exact absurd h1.1 hs
      · exact absurd h1.1 ho
    | cons a q =>
      simp only [List.cons_append, List.cons.injEq] at h1
      obtain ⟨rfl, h1⟩ := h1
      cases q with
      | nil => simp at h1; exact hp.entry sec name [] (by simp [h1.1]) h2
      | cons b q =>
        simp only [List.cons_append, List.cons.injEq] at h1
        exact hp.entry sec name (q ++ [.str f]) (by simp [h1.1]) h2

/-- where a name is mentioned, with the value found there -/
theorem mentions_value {t : Val} {p : Path} {R : String} (h : Mentions t p R) :
    ∃ q f v, p = q ++ [.str f] ∧ At t p v ∧ (f = "Ref" ∧ v = .str R ∨
      f = "Fn::GetAtt" ∧ ((∃ xs, v = .list (.str R :: xs)) ∨ ∃ s : String, v = .str s ∧ Owner s.toList R.toList)) := by
  cases h with
  | ref h => exact ⟨_, _, _, rfl, h, .inl ⟨rfl, rfl⟩⟩
  | getAtt h => exact ⟨_, _, _, rfl, h, .inr ⟨rfl, .inl ⟨_, rfl⟩⟩⟩
  | getAttText h ho => exact ⟨_, _, _, rfl, h, .inr ⟨rfl, .inr ⟨_, rfl, ho⟩⟩⟩

theorem beforeDot_of_owner {s R : String} (h : Owner s.toList R.toList) : beforeDot s = R := by
  have := beforeDot_owner h
  rw [String.ofList_toList] at this
  split at this
  · exact this
  · rename_i hd
    subst this
    unfold beforeDot
    have : s.toList.takeWhile (fun c => c ≠ '.') = s.toList := by
      rw [List.takeWhile_eq_self_iff]
      intro c hc
      simp only [ne_eq, decide_not, Bool.not_eq_eq_eq_not, Bool.not_true, decide_eq_false_iff_not]
      rintro rfl
      exact hd hc
    rw [this, String.ofList_toList]

theorem owner_beforeDot (s : String) : Owner s.toList (beforeDot s).toList := by
  unfold beforeDot
  rw [String.toList_ofList]
  refine ⟨?_, ?_⟩
  · intro h
    have := List.mem_takeWhile_imp h
    simp at this
  · have hd := List.takeWhile_append_dropWhile (p := fun c => decide (c ≠ '.')) (l := s.toList)
    cases hw : s.toList.dropWhile (fun c => decide (c ≠ '.')) with
    | nil => rw [hw, List.append_nil] at hd; exact .inl hd.symm
    | cons c r =>
      right
      have hc : c = '.' := by
        have := List.head?_dropWhile_not (fun c => decide (c ≠ '.')) s.toList
        rw [hw] at this
        simpa using this
      subst hc
      rw [hw] at hd
      exact ⟨r, hd.symm⟩

/-- the reports about one reference are the scenarios of `is_resource_available` -/
theorem availableAt_str {enum : String → List String → List String} {tb : CondTable} {t : Val} {p : Path} {R : String}
    {scs : List Scenario} (h : availableAt enum tb t p (.str R) = .ok scs) : isResourceAvailable enum tb t p (.str R) = .ok scs := by
  unfold availableAt at h
  split at h
  · cases h
  · simpa [toKey] using h

theorem relOne_str {enum : String → List String → List String} {tb : CondTable} {t v : Val} {p : Path} {R : String}
    {l : List RelReport} (hnp : R ∉ pseudoParams) (h : relOne enum tb t p v (.str R) = .ok l) :
    ∃ scs, isResourceAvailable enum tb t (p ++ [lastKey v]) (.str R) = .ok scs ∧
      l = scs.map (fun sc => ⟨p, .str R, sc⟩) := by
  unfold relOne at h
  rw [if_pos (by simp [notPseudo, hnp])] at h
  split at h
  · cases h
  · rename_i scs hs
    injection h with h
    exact ⟨scs, availableAt_str hs, h.symm⟩

/-- the reports of the rule about the references to `R` -/
theorem relations_mem {enum : String → List String → List String} {tb : CondTable} {t : Val} {res : List RelReport}
    (hw : t.WF) (h : relationsRule enum tb t (.dict []) = .ok res) {p : Path} {R : String} (hm : Mentions t p R)
    (hnp : R ∉ pseudoParams) (hne : R ≠ "") :
    ∃ k scs, (R ≠ "Fn::If" → k ≠ .str "Fn::If") ∧ isResourceAvailable enum tb t (p ++ [k]) (.str R) = .ok scs ∧
      ∀ sc ∈ scs, ⟨p, .str R, sc⟩ ∈ res := by
  unfold relationsRule at h
  split at h
  · cases h
  · rename_i refs hrefs
    split at h
    · cases h
    · rename_i atts hatts
      injection h with h
      subst h
      obtain ⟨q, f, v, rfl, hat, ⟨rfl, rfl⟩ | ⟨rfl, hv⟩⟩ := mentions_value hm
      · have hf := ((C27_search_partial "Ref" t hw).1 _ _).2 ⟨hat, q, rfl⟩
        obtain ⟨l, hl⟩ := collectM_each hrefs _ hf
        obtain ⟨scs, h1, h2⟩ := relOne_str hnp hl
        refine ⟨_, scs, by simp [lastKey], h1, fun sc hsc => List.mem_append_left _ ?_⟩
        exact (mem_collectM hrefs).2 ⟨_, hf, l, hl, by rw [h2]; exact List.mem_map.2 ⟨sc, hsc, rfl⟩⟩
      · have hf := ((C27_search_partial "Fn::GetAtt" t hw).1 _ _).2 ⟨hat, q, rfl⟩
        obtain ⟨l, hl⟩ := collectM_each hatts _ hf
        have htarget : getAttTarget v = .ok (.str R) := by
          rcases hv with ⟨xs, rfl⟩ | ⟨s, rfl, ho⟩
          · rfl
          · simp [getAttTarget, beforeDot_of_owner ho]
        have hl' := hl
        unfold relGetAtt at hl'
        simp only [htarget] at hl'
        rw [if_pos (by simp [Val.truthy, hne])] at hl'
        obtain ⟨scs, h1, h2⟩ := relOne_str hnp hl'
        refine ⟨_, scs, ?_, h1, fun sc hsc => List.mem_append_right _ ?_⟩
        · intro hR hk
          rcases hv with ⟨xs, rfl⟩ | ⟨s, rfl, ho⟩
          · simp [lastKey] at hk
          · simp [lastKey] at hk
            subst hk
            apply hR
            rw [← beforeDot_of_owner ho]
            rfl
        · exact (mem_collectM hatts).2 ⟨_, hf, l, hl, by rw [h2]; exact List.mem_map.2 ⟨sc, hsc, rfl⟩⟩

theorem mentions_last {t : Val} {p : Path} {R : String} (h : Mentions t p R) :
    ∃ q f v, p = q ++ [.str f] ∧ At t p v ∧ f ≠ "Fn::If" ∧ f ≠ "Resources" ∧ f ≠ "Outputs" := by
  obtain ⟨q, f, v, rfl, hat, ⟨rfl, _⟩ | ⟨rfl, _⟩⟩ := mentions_value h
  · exact ⟨q, _, v, rfl, hat, by decide, by decide, by decide⟩
  · exact ⟨q, _, v, rfl, hat, by decide, by decide, by decide⟩

/-- **C63** in full: a reference that exists in a deployment without the resource it names is reported, at its place,
with a scenario the deployment belongs to. -/
def C63_statement : Prop := ∀ (H : Val → String) (fuel : Nat) (enum : String → List String → List String)
  (t : List (Key × Val)) (tb : CondTable) (b : String → Bool) (p : Path) (R rc : String) (res : List RelReport),
  MentionsAny (.dict t) p R → R ∉ pseudoParams → R ≠ "" → R ≠ "Fn::If" → GoodPath (.dict t) p →
  EntryOk (.dict t) "Resources" (.str R) → ResourceCondition (.dict t) (.str R) rc →
  Deployment H fuel enum t tb (Concerned (.dict t) p rc) b → (∀ c x, Requires (.dict t) p c x → b c = x) → b rc = false →
  relationsRule enum tb (.dict t) (.dict []) = .ok res →
  ∃ r ∈ res, r.path = p ∧ r.name = .str R ∧ Agrees (some r.scenario) b

theorem askedFor_names {t : Val} {p : Path} {rc : String} {req : List Key} (h : AskedFor t p rc req) :
    ∃ l : List String, req = l.map Key.str ∧ l.Nodup ∧ ∀ c, c ∈ l ↔ Concerned t p rc c := by
  obtain ⟨hn, hm⟩ := h
  have : ∀ (req : List Key), (∀ k ∈ req, ∃ c, k = .str c) → ∃ l : List String, req = l.map Key.str := by
    intro req
    induction req with
    | nil => intro _; exact ⟨[], rfl⟩
    | cons k ks ih =>
      intro h
      obtain ⟨c, rfl⟩ := h k List.mem_cons_self
      obtain ⟨l, rfl⟩ := ih fun k hk => h k (List.mem_cons_of_mem _ hk)
      exact ⟨c :: l, rfl⟩
  obtain ⟨l, rfl⟩ := this req fun k hk => by obtain ⟨c, hc, _⟩ := (hm k).1 hk; exact ⟨c, hc⟩
  refine ⟨l, rfl, (List.pairwise_map.1 hn).imp (fun h e => h (congrArg _ e)), fun c => ?_⟩
  have := hm (.str c)
  simp only [List.mem_map, Key.str.injEq, exists_eq_right] at this
  rw [this]
  constructor
  · rintro ⟨c', h1, h2⟩; cases h1; exact h2
  · intro h; exact ⟨c, rfl, h⟩

/-- what a deployment gives for the availability of a resource -/
theorem deployment_available {H : Val → String} {fuel : Nat} {enum : String → List String → List String}
    {t : List (Key × Val)} {tb : CondTable} {b : String → Bool} {p : Path} {r : Key} {rc : String}
    (hd : Deployment H fuel enum t tb (Concerned (.dict t) p rc) b) (hp : GoodPath (.dict t) p)
    (he : EntryOk (.dict t) "Resources" r) (hrc : ResourceCondition (.dict t) r rc)
    (hex : ∀ c x, Requires (.dict t) p c x → b c = x) (hgone : b rc = false) (hoff : ¬ Requires (.dict t) p rc false) :
    ∃ scs, isResourceAvailable enum tb (.dict t) p r = .ok scs ∧ ∃ sc ∈ scs, ∀ c, Concerned (.dict t) p rc c →
      dlookup (Key.str c) sc = some (some (b c)) := by
  obtain ⟨σ, hσ, hperm, hval⟩ := hd.values
  obtain ⟨scs, hscs, sc, hsc, hl⟩ := C31_deployment_covered_partial H fuel enum t tb σ p r rc
    (fun k => match k with | .str c => b c | .int _ => false) hd.enumerates hd.wf hd.noHash hd.init hσ hperm hd.allowed
    hp he hrc hval hex hgone hoff (by
      intro req hask
      obtain ⟨l, rfl, h1, h2⟩ := askedFor_names hask
      rw [List.length_map]
      exact hd.small l h1 h2)
  exact ⟨scs, hscs, sc, hsc, hl⟩

theorem deployment_congr {H : Val → String} {fuel : Nat} {enum : String → List String → List String}
    {t : List (Key × Val)} {tb : CondTable} {b : String → Bool} {P Q : String → Prop} (h : ∀ c, P c ↔ Q c)
    (hd : Deployment H fuel enum t tb P b) : Deployment H fuel enum t tb Q b := by
  have : P = Q := funext fun c => propext (h c)
  rw [← this]
  exact hd

/-- **C63**, what holds: references by `Ref` and `Fn::GetAtt` outside the false branch of the resource's own condition.
Missing for the full statement: the variables of `Fn::Sub`, and the false branch. -/
theorem C63_complete_partial {H : Val → String} {fuel : Nat} {enum : String → List String → List String}
    {t : List (Key × Val)} {tb : CondTable} {b : String → Bool} {p : Path} {R rc : String} {res : List RelReport}
    (hm : Mentions (.dict t) p R) (hnp : R ∉ pseudoParams) (hne : R ≠ "") (hif : R ≠ "Fn::If") (hp : GoodPath (.dict t) p)
    (he : EntryOk (.dict t) "Resources" (.str R)) (hrc : ResourceCondition (.dict t) (.str R) rc)
    (hd : Deployment H fuel enum t tb (Concerned (.dict t) p rc) b) (hex : ∀ c x, Requires (.dict t) p c x → b c = x)
    (hgone : b rc = false) (hoff : ¬ Requires (.dict t) p rc false)
    (h : relationsRule enum tb (.dict t) (.dict []) = .ok res) :
    ∃ r ∈ res, r.path = p ∧ r.name = .str R ∧
      ∀ c, Concerned (.dict t) p rc c → dlookup (Key.str c) r.scenario = some (some (b c)) := by
  obtain ⟨k, scs, hk, hscs, hin⟩ := relations_mem hd.wf h hm hnp hne
  obtain ⟨q, f, v, rfl, hat, h1, h2, h3⟩ := mentions_last hm
  have hreq : ∀ c x, Requires (.dict t) (q ++ [.str f] ++ [k]) c x ↔ Requires (.dict t) (q ++ [.str f]) c x :=
    fun c x => requires_snoc h1 h2 h3
  have hcon : ∀ c, Concerned (.dict t) (q ++ [.str f]) rc c ↔ Concerned (.dict t) (q ++ [.str f] ++ [k]) rc c := by
    intro c; simp only [Concerned, hreq]
  obtain ⟨scs', hs', sc, hsc, hl⟩ := deployment_available (deployment_congr hcon hd) (goodPath_snoc h2 h3 (hk hif) hp hat)
    he hrc (fun c x hr => hex c x ((hreq c x).1 hr)) hgone (fun hr => hoff ((hreq _ _).1 hr))
  rw [hscs] at hs'
  injection hs' with hs'
  subst hs'
  exact ⟨_, hin sc hsc, rfl, rfl, fun c hc => hl c ((hcon c).1 hc)⟩

/-- **C63** Whatever is reported is a reference by `Ref` or `Fn::GetAtt` to a resource, at its place. -/
theorem C63_places {enum : String → List String → List String} {tb : CondTable} {t : Val} {res : List RelReport}
    (hw : t.WF) (h : relationsRule enum tb t (.dict []) = .ok res) {r : RelReport} (hr : r ∈ res) {R : String}
    (hn : r.name = .str R) : Mentions t r.path R ∧ R ∉ pseudoParams ∧
      ∃ k scs, (R ≠ "Fn::If" → k ≠ .str "Fn::If") ∧ isResourceAvailable enum tb t (r.path ++ [k]) (.str R) = .ok scs ∧ r.scenario ∈ scs := by
  have hone : ∀ {p : Path} {v name : Val} {l : List RelReport}, relOne enum tb t p v name = .ok l → r ∈ l →
      r.path = p ∧ name = .str R ∧ R ∉ pseudoParams ∧
        ∃ scs, isResourceAvailable enum tb t (p ++ [lastKey v]) (.str R) = .ok scs ∧ r.scenario ∈ scs := by
    intro p v name l hl hrl
    have hl' := hl
    unfold relOne at hl
    split at hl
    · rename_i hnp
      split at hl
      · cases hl
      · injection hl with hl
        subst hl
        obtain ⟨sc, hsc, rfl⟩ := List.mem_map.1 hrl
        subst hn
        have hps : R ∉ pseudoParams := by simpa [notPseudo] using hnp
        obtain ⟨scs', h1, h2⟩ := relOne_str hps hl'
        refine ⟨rfl, rfl, hps, scs', h1, ?_⟩
        rw [h2] at hrl
        obtain ⟨sc', h3, h4⟩ := List.mem_map.1 hrl
        cases h4
        exact h3
    · injection hl with hl
      subst hl
      cases hrl
  unfold relationsRule at h
  split at h
  · cases h
  · rename_i refs hrefs
    split at h
    · cases h
    · rename_i atts hatts
      injection h with h
      subst h
      rcases List.mem_append.1 hr with hr | hr
      · obtain ⟨⟨p, v⟩, hf, l, hl, hrl⟩ := (mem_collectM hrefs).1 hr
        obtain ⟨h1, h2, h3, scs, h4, h5⟩ := hone hl hrl
        obtain ⟨hat, q, rfl⟩ := ((C27_search_partial "Ref" t hw).1 _ _).1 hf
        simp only at h1 h2
        subst h2
        rw [h1]
        exact ⟨.ref hat, h3, _, scs, by simp [lastKey], h4, h5⟩
      · obtain ⟨⟨p, v⟩, hf, l, hl, hrl⟩ := (mem_collectM hatts).1 hr
        obtain ⟨hat, q, rfl⟩ := ((C27_search_partial "Fn::GetAtt" t hw).1 _ _).1 hf
        unfold relGetAtt at hl
        simp only at hl
        split at hl
        · cases hl
        · rename_i name hname
          split at hl
          · obtain ⟨h1, h2, h3, scs, h4, h5⟩ := hone hl hrl
            subst h2
            rw [h1]
            refine ⟨?_, h3, _, scs, ?_, h4, h5⟩
            · cases v with
              | list xs =>
                cases xs with
                | nil => cases hname
                | cons x xs => simp only [getAttTarget] at hname; injection hname with hname; subst hname; exact .getAtt hat
              | str s =>
                simp only [getAttTarget] at hname
                injection hname with hname
                injection hname with hname
                subst hname
                exact .getAttText hat (owner_beforeDot s)
              | _ => simp [getAttTarget] at hname
            · intro hR hk
              cases v with
              | str s =>
                simp only [lastKey] at hk
                injection hk with hk
                subst hk
                simp only [getAttTarget] at hname
                injection hname with hname
                injection hname with hname
                exact hR (by rw [← hname]; rfl)
              | _ => simp [lastKey] at hk
          · injection hl with hl
            subst hl
            cases hrl

/-- **C63** Every report can occur: with the restrictions of C23 there is an assignment of the parameters in which the
reference exists and the resource does not. -/
theorem C63_sound_partial {H : Val → String} {fuel : Nat} {enum : String → List String → List String}
    {t : List (Key × Val)} {tb : CondTable} {res : List RelReport}
    (hw : (Val.dict t).WF) (hno : NoHashLiterals H (conditionsOf t)) (href : RefsDistinct H)
    (hinit : Conditions.init H fuel (.dict t) = (tb, none)) (hpl : PlainAllowed t)
    (h : relationsRule enum tb (.dict t) (.dict []) = .ok res) {r : RelReport} (hr : r ∈ res) {R : String}
    (hn : r.name = .str R) (hif : R ≠ "Fn::If") (hp : GoodPath (.dict t) r.path) (he : EntryOk (.dict t) "Resources" (.str R)) :
    ∃ rc, ResourceCondition (.dict t) (.str R) rc ∧
      ((∀ c, Concerned (.dict t) r.path rc c → ∃ v, dlookup (Key.str c) (conditionsOf t) = some v ∧ WellFormed (conditionsOf t) v) →
      (∀ c, ¬ (Requires (.dict t) r.path c true ∧ Requires (.dict t) r.path c false)) →
      (∀ req, AskedFor (.dict t) r.path rc req → Related (conditionsOf t) req) →
      ∃ σ, Respects H σ ∧ Permitted t σ ∧
        (∃ v, dlookup (Key.str rc) (conditionsOf t) = some v ∧ Evals OneSided (conditionsOf t) σ v false) ∧
        ∀ c x, Requires (.dict t) r.path c x →
          ∃ v, dlookup (Key.str c) (conditionsOf t) = some v ∧ Evals OneSided (conditionsOf t) σ v x) := by
  obtain ⟨hm, _, k, scs, hk, hscs, hsc⟩ := C63_places hw h hr hn
  obtain ⟨q, f, v, hpq, hat, h1, h2, h3⟩ := mentions_last hm
  have hreq : ∀ c x, Requires (.dict t) (r.path ++ [k]) c x ↔ Requires (.dict t) r.path c x := by
    intro c x; rw [hpq]; exact requires_snoc h1 h2 h3
  have hgood : GoodPath (.dict t) (r.path ++ [k]) := by
    rw [hpq] at hat hp ⊢
    exact goodPath_snoc h2 h3 (hk hif) hp hat
  obtain ⟨rc, hrc⟩ : ∃ rc, ResourceCondition (.dict t) (.str R) rc := by
    obtain ⟨c, hc, ⟨rfl, _⟩ | ⟨s, rfl, hs⟩⟩ := entryCondition_spec hw he
    · exfalso
      unfold isResourceAvailable at hscs
      rw [hc] at hscs
      split at hscs
      · cases hscs
      · simp [Val.truthy] at hscs; subst hscs; cases hsc
    · refine ⟨s, (hs _).2 rfl, ?_⟩
      rintro rfl
      unfold isResourceAvailable at hscs
      rw [hc] at hscs
      split at hscs
      · cases hscs
      · simp [Val.truthy] at hscs; subst hscs; cases hsc
  refine ⟨rc, hrc, fun hev hcon hrel => ?_⟩
  obtain ⟨σ, s1, s2, s3, s4⟩ := C31_report_real_partial H fuel enum t tb (r.path ++ [k]) (.str R) rc scs hw hno href hinit hpl
    hgood he hrc (by intro c hc; simp only [hreq] at hc; exact hev c hc) (by simpa only [hreq] using hcon)
    (by
      intro req hask
      refine hrel req ⟨hask.1, fun k => ?_⟩
      rw [hask.2]
      simp only [hreq]) hscs r.scenario hsc
  exact ⟨σ, s1, s2, s3, fun c x hx => s4 c x ((hreq c x).2 hx)⟩

/-! ### DependsOn -/

theorem mem_getResources {t : Val} {rs : List (Key × Val)} (hw : t.WF) (h : getResources t = .ok rs) (k : Key) (v : Val) :
    (k, v) ∈ rs ↔ ∃ r, v = .dict r ∧ TypedResource t k r := by
  unfold getResources at h
  cases t with
  | dict top =>
    simp only [Val.WF] at hw
    simp only [Val.getD] at h
    cases hl : dlookup (Key.str "Resources") top with
    | none =>
      rw [hl] at h
      simp only [Option.getD_none] at h
      injection h with h
      subst h
      simp only [List.filter_nil, List.not_mem_nil, false_iff]
      rintro ⟨r, _, top', res, ty, e, h1, _⟩
      cases e
      rw [dlookup_of_mem hw.1 h1] at hl
      cases hl
    | some sec =>
      rw [hl] at h
      simp only [Option.getD_some] at h
      have hno : (∀ res, sec ≠ .dict res) → rs = [] → ((k, v) ∈ rs ↔ ∃ r, v = .dict r ∧ TypedResource (.dict top) k r) := by
        intro hn hr
        subst hr
        simp only [List.not_mem_nil, false_iff]
        rintro ⟨r, _, top', res, ty, e, h1, _⟩
        cases e
        rw [dlookup_of_mem hw.1 h1] at hl
        injection hl with hl
        exact hn res hl.symm
      cases sec with
      | dict kvs =>
        simp only at h
        injection h with h
        subst h
        have hwk := wfDict_mem_cond hw.2 (dlookup_mem hl)
        simp only [Val.WF] at hwk
        rw [List.mem_filter]
        constructor
        · rintro ⟨h1, h2⟩
          cases v with
          | dict r =>
            simp only [isTyped] at h2
            have hwr := wfDict_mem_cond hwk.2 h1
            simp only [Val.WF] at hwr
            cases ht : dlookup (Key.str "Type") r with
            | none => rw [ht] at h2; simp at h2
            | some ty =>
              rw [ht] at h2
              exact ⟨r, rfl, top, kvs, ty, rfl, dlookup_mem hl, h1, dlookup_mem ht, by simpa using h2⟩
          | _ => cases h2
        · rintro ⟨r, rfl, top', res, ty, e, h1, h2, h3, h4⟩
          cases e
          rw [dlookup_of_mem hw.1 h1] at hl
          injection hl with hl
          injection hl with hl
          subst hl
          refine ⟨h2, ?_⟩
          have hwr := wfDict_mem_cond hwk.2 h2
          simp only [Val.WF] at hwr
          simp [isTyped, dlookup_of_mem hwr.1 h3, h4]
      | _ => simp only at h; injection h with h; exact hno (by simp) h.symm
  | _ => cases h

theorem typed_wf {t : Val} {k : Key} {r : List (Key × Val)} (hw : t.WF) (h : TypedResource t k r) : (Val.dict r).WF := by
  obtain ⟨top, res, ty, rfl, h1, h2, _⟩ := h
  simp only [Val.WF] at hw
  have := wfDict_mem_cond hw.2 h1
  simp only [Val.WF] at this
  exact wfDict_mem_cond this.2 h2

theorem dependsOnValues_spec {t : Val} {k : Key} {r : List (Key × Val)} (hw : t.WF) (hr : TypedResource t k r) :
    ∃ vs, dependsOnValues k (.dict r) = .ok vs ∧
      ∀ v p, (v, p) ∈ vs → DependsOnAt t k p v := by
  have hwr := typed_wf hw hr
  simp only [Val.WF] at hwr
  unfold dependsOnValues
  simp only [Val.getD]
  cases hl : dlookup (Key.str "DependsOn") r with
  | none => simp [Val.truthy]
  | some d =>
    simp only [Option.getD_some]
    have hm := dlookup_mem hl
    by_cases htr : d.truthy = true
    · rw [if_pos htr]
      cases d with
      | list xs =>
        refine ⟨_, rfl, ?_⟩
        intro v p h
        obtain ⟨⟨x, i⟩, hi, he⟩ := List.mem_map.1 h
        injection he with h1 h2
        subst h1 h2
        exact .item hr hm (by simpa [List.mem_zipIdx_iff_getElem?] using hi)
      | _ =>
        refine ⟨_, rfl, ?_⟩
        intro v p h
        simp only [List.mem_cons, Prod.mk.injEq, List.not_mem_nil, or_false] at h
        obtain ⟨rfl, rfl⟩ := h
        exact .one hr hm htr (by simp)
    · rw [if_neg htr]
      exact ⟨_, rfl, by simp⟩

theorem mem_dependsOnValues {t : Val} {k : Key} {p : Path} {v : Val} (hw : t.WF) (h : DependsOnAt t k p v) :
    ∃ r vs, TypedResource t k r ∧ dependsOnValues k (.dict r) = .ok vs ∧ (v, p) ∈ vs := by
  cases h with
  | one hr hm htr hn =>
    rename_i r
    have hwr := typed_wf hw hr
    simp only [Val.WF] at hwr
    refine ⟨_, [(v, _)], hr, ?_, List.mem_cons_self⟩
    unfold dependsOnValues
    simp only [Val.getD, dlookup_of_mem hwr.1 hm, Option.getD_some, htr, if_true]
  | item hr hm hi =>
    rename_i r xs i
    have hwr := typed_wf hw hr
    simp only [Val.WF] at hwr
    have hne : xs ≠ [] := by rintro rfl; simp at hi
    refine ⟨_, xs.zipIdx.map (fun xi => (xi.1, [.str "Resources", k, .str "DependsOn", .int xi.2])), hr, ?_, ?_⟩
    · unfold dependsOnValues
      simp only [Val.getD, dlookup_of_mem hwr.1 hm, Option.getD_some]
      rw [if_pos (by cases xs with | nil => exact absurd rfl hne | cons => simp [Val.truthy])]
    · refine List.mem_map.2 ⟨(v, i), ?_, rfl⟩
      simpa [List.mem_zipIdx_iff_getElem?] using hi

/-- the findings of a rule that goes through all values of `DependsOn` -/
theorem mem_eachDependsOn {β : Type} {t : Val} {rs : List (Key × Val)} {f : Key → Val → Path → PyM (List β)} {res : List β}
    (hw : t.WF) (hrs : getResources t = .ok rs)
    (h : collectM (fun kv =>
      match dependsOnValues kv.1 kv.2 with
      | .error e => .error e
      | .ok vs => collectM (fun vp => f kv.1 vp.1 vp.2) vs) rs = .ok res) (x : β) :
    x ∈ res ↔ ∃ k p v l, DependsOnAt t k p v ∧ f k v p = .ok l ∧ x ∈ l := by
  rw [mem_collectM h]
  constructor
  · rintro ⟨⟨k, v0⟩, hkv, l0, h0, hx⟩
    obtain ⟨r, rfl, hr⟩ := (mem_getResources hw hrs k v0).1 hkv
    obtain ⟨vs, hvs, hmem⟩ := dependsOnValues_spec hw hr
    simp only [hvs] at h0
    obtain ⟨⟨v, p⟩, hvp, l, hl, hxl⟩ := (mem_collectM h0).1 hx
    exact ⟨k, p, v, l, hmem v p hvp, hl, hxl⟩
  · rintro ⟨k, p, v, l, hd, hl, hx⟩
    obtain ⟨r, vs, hr, hvs, hvp⟩ := mem_dependsOnValues hw hd
    have hkv := (mem_getResources hw hrs k (.dict r)).2 ⟨r, rfl, hr⟩
    obtain ⟨l0, h0⟩ := collectM_each h _ hkv
    refine ⟨_, hkv, l0, h0, ?_⟩
    simp only [hvs] at h0
    exact (mem_collectM h0).2 ⟨_, hvp, l, hl, hx⟩

theorem each_dependsOn {β : Type} {t : Val} {rs : List (Key × Val)} {f : Key → Val → Path → PyM (List β)} {res : List β}
    (hw : t.WF) (hrs : getResources t = .ok rs)
    (h : collectM (fun kv =>
      match dependsOnValues kv.1 kv.2 with
      | .error e => .error e
      | .ok vs => collectM (fun vp => f kv.1 vp.1 vp.2) vs) rs = .ok res) {k : Key} {p : Path} {v : Val}
    (hd : DependsOnAt t k p v) : ∃ l, f k v p = .ok l := by
  obtain ⟨r, vs, hr, hvs, hvp⟩ := mem_dependsOnValues hw hd
  have hkv := (mem_getResources hw hrs k (.dict r)).2 ⟨r, rfl, hr⟩
  obtain ⟨l0, h0⟩ := collectM_each h _ hkv
  simp only [hvs] at h0
  exact collectM_each h0 _ hvp

theorem dependsOnRule_ok {enum : String → List String → List String} {tb : CondTable} {t : Val} {res : List (Path × DepKind)}
    (h : dependsOnRule enum tb t = .ok res) : ∃ rs, getResources t = .ok rs ∧
    collectM (fun kv =>
      match dependsOnValues kv.1 kv.2 with
      | .error e => .error e
      | .ok vs => collectM (fun vp => dependsOnValue enum tb t rs vp.1 vp.2) vs) rs = .ok res := by
  unfold dependsOnRule at h
  split at h
  · cases h
  · rename_i rs hrs
    exact ⟨rs, hrs, h⟩

theorem dhas_resources {t : Val} {rs : List (Key × Val)} (hw : t.WF) (hrs : getResources t = .ok rs) (k : Key) :
    dhas k rs = true ↔ ∃ r, TypedResource t k r := by
  rw [dhas_iff, List.mem_map]
  constructor
  · rintro ⟨⟨k', v⟩, h1, rfl⟩
    obtain ⟨r, _, h⟩ := (mem_getResources hw hrs _ _).1 h1
    exact ⟨r, h⟩
  · rintro ⟨r, h⟩
    exact ⟨(k, .dict r), (mem_getResources hw hrs _ _).2 ⟨r, rfl, h⟩, rfl⟩

/-- **C64** The values of `DependsOn` that are not texts, and those that name no resource, are reported exactly; the others
are reported with the scenarios in which the resource is not available. -/
theorem C64_exact {enum : String → List String → List String} {tb : CondTable} {t : Val} {res : List (Path × DepKind)}
    (hw : t.WF) (h : dependsOnRule enum tb t = .ok res) (p : Path) :
    ((p, .notText) ∈ res ↔ ∃ k v, DependsOnAt t k p v ∧ ∀ s, v ≠ .str s) ∧
    ((p, .unknown) ∈ res ↔ ∃ k s, DependsOnAt t k p (.str s) ∧ ∀ r, ¬ TypedResource t (.str s) r) ∧
    ∀ sc, (p, .mayNotExist sc) ∈ res ↔ sc ≠ [] ∧ ∃ k s r scs, DependsOnAt t k p (.str s) ∧ TypedResource t (.str s) r ∧
      isResourceAvailable enum tb t p (.str s) = .ok scs ∧ sc ∈ scs := by
  obtain ⟨rs, hrs, h⟩ := dependsOnRule_ok h
  have hmem := mem_eachDependsOn (f := fun _ v p => dependsOnValue enum tb t rs v p) hw hrs h
  have hhas := dhas_resources hw hrs
  refine ⟨?_, ?_, ?_⟩
  · rw [hmem]
    constructor
    · rintro ⟨k, p', v, l, hd, hl, hx⟩
      unfold dependsOnValue at hl
      split at hl
      · split at hl
        · split at hl
          · cases hl
          · injection hl with hl; subst hl; simp at hx
        · injection hl with hl; subst hl; simp at hx
      · rename_i hns
        injection hl with hl
        subst hl
        simp at hx
        subst hx
        exact ⟨k, v, hd, fun s e => hns s e⟩
    · rintro ⟨k, v, hd, hs⟩
      refine ⟨k, p, v, [(p, .notText)], hd, ?_, List.mem_cons_self⟩
      cases v with
      | str s => exact absurd rfl (hs s)
      | _ => rfl
  · rw [hmem]
    constructor
    · rintro ⟨k, p', v, l, hd, hl, hx⟩
      unfold dependsOnValue at hl
      split at hl
      · rename_i s
        split at hl
        · split at hl
          · cases hl
          · injection hl with hl; subst hl; simp at hx
        · rename_i hno
          injection hl with hl
          subst hl
          simp at hx
          subst hx
          exact ⟨k, s, hd, fun r hr => hno ((hhas _).2 ⟨r, hr⟩)⟩
      · injection hl with hl; subst hl; simp at hx
    · rintro ⟨k, s, hd, hs⟩
      refine ⟨k, p, .str s, [(p, .unknown)], hd, ?_, List.mem_cons_self⟩
      unfold dependsOnValue
      simp only
      rw [if_neg]
      intro hh
      obtain ⟨r, hr⟩ := (hhas _).1 hh
      exact hs r hr
  · intro sc
    rw [hmem]
    constructor
    · rintro ⟨k, p', v, l, hd, hl, hx⟩
      unfold dependsOnValue at hl
      split at hl
      · rename_i s
        split at hl
        · rename_i hh
          split at hl
          · cases hl
          · rename_i scs hscs
            injection hl with hl
            subst hl
            simp at hx
            obtain ⟨⟨h1, h2⟩, rfl⟩ := hx
            obtain ⟨r, hr⟩ := (hhas _).1 hh
            exact ⟨h2, k, s, r, scs, hd, hr, hscs, h1⟩
        · injection hl with hl; subst hl; simp at hx
      · injection hl with hl; subst hl; simp at hx
    · rintro ⟨h2, k, s, r, scs, hd, hr, hscs, h1⟩
      refine ⟨k, p, .str s, (scs.filter (fun sc => !sc.isEmpty)).map (fun sc => (p, .mayNotExist sc)), hd, ?_, ?_⟩
      · unfold dependsOnValue
        simp only
        rw [if_pos ((hhas _).2 ⟨r, hr⟩), hscs]
      · simp [h1, h2]

/-- what a path to a value of `DependsOn` looks like -/
theorem dependsOnAt_path {t : Val} {k : Key} {p : Path} {v : Val} (h : DependsOnAt t k p v) :
    (p = [.str "Resources", k, .str "DependsOn"] ∨ ∃ i : Nat, p = [.str "Resources", k, .str "DependsOn", .int i]) ∧
    ∃ r, TypedResource t k r ∧ ∃ d, (Key.str "DependsOn", d) ∈ r := by
  cases h with
  | one h1 h2 => exact ⟨.inl rfl, _, h1, _, h2⟩
  | item h1 h2 => exact ⟨.inr ⟨_, rfl⟩, _, h1, _, h2⟩

theorem typed_at {t : Val} {k : Key} {r : List (Key × Val)} (h : TypedResource t k r) : At t [.str "Resources", k] (.dict r) := by
  obtain ⟨top, res, ty, rfl, h1, h2, _⟩ := h
  exact .key h1 (.key h2 .here)

/-- the conditions on the path to a value of `DependsOn` are those of the resource -/
theorem dependsOn_requires {t : Val} {k : Key} {p : Path} {v : Val} (h : DependsOnAt t k p v) (c : String) (x : Bool) :
    Requires t p c x ↔ x = true ∧ ResourceCondition t k c := by
  have hp := (dependsOnAt_path h).1
  have hno : ∀ (q r : Path) (n : Int), n = 1 ∨ n = 2 → p ≠ q ++ .str "Fn::If" :: .int n :: r := by
    intro q r n hn he
    rcases hp with rfl | ⟨i, rfl⟩
    · match q, he with
      | [], he => simp at he
      | [_], he => simp at he
      | [_, _], he => simp at he
      | _ :: _ :: _ :: q, he => simp at he
    · match q, he with
      | [], he => simp at he
      | [_], he => simp at he
      | [_, _], he => simp at he
      | [_, _, _], he => simp at he
      | _ :: _ :: _ :: _ :: q, he => simp at he
  constructor
  · intro hr
    cases hr with
    | yes h1 => exact absurd h1 (hno _ _ 1 (.inl rfl))
    | no h1 => exact absurd h1 (hno _ _ 2 (.inr rfl))
    | entry h1 h2 h3 h4 =>
      refine ⟨rfl, ?_⟩
      rcases hp with rfl | ⟨i, rfl⟩
      · simp at h1; obtain ⟨rfl, rfl, _⟩ := h1; exact ⟨h3, h4⟩
      · simp at h1; obtain ⟨rfl, rfl, _⟩ := h1; exact ⟨h3, h4⟩
  · rintro ⟨rfl, h3, h4⟩
    rcases hp with rfl | ⟨i, rfl⟩
    · exact .entry rfl (.inl rfl) h3 h4
    · exact .entry rfl (.inl rfl) h3 h4

theorem dependsOn_goodPath {t : Val} {k : Key} {p : Path} {v : Val} (hw : t.WF) (h : DependsOnAt t k p v)
    (he : EntryOk t "Resources" k) : GoodPath t p := by
  obtain ⟨hp, r, hr, d, hd⟩ := dependsOnAt_path h
  have hat := typed_at hr
  have hatd : At t [.str "Resources", k, .str "DependsOn"] d := by
    have := at_append hat (.key hd .here : At (.dict r) [.str "DependsOn"] d)
    simpa using this
  constructor
  · rcases hp with rfl | ⟨i, rfl⟩ <;> simp
  · rcases hp with rfl | ⟨i, rfl⟩
    · exact ⟨_, hat⟩
    · exact ⟨_, hatd⟩
  · rcases hp with rfl | ⟨i, rfl⟩ <;> simp
  · intro q c a b hpre hat'
    exfalso
    have hk2 : q ++ [.str "Fn::If"] = [.str "Resources", k] := by
      have : ∀ tail : Path, (∀ x ∈ tail, x ≠ Key.str "Fn::If") → q ++ [Key.str "Fn::If"] <+: .str "Resources" :: k :: tail →
          q ++ [Key.str "Fn::If"] = [.str "Resources", k] := by
        intro tail ht hpre
        match q, hpre with
        | [], hpre => simp at hpre
        | [x], hpre =>
          simp only [List.cons_append, List.nil_append] at hpre ⊢
          rw [List.cons_prefix_cons, List.cons_prefix_cons] at hpre
          rw [hpre.1, hpre.2.1]
        | x :: y :: q, hpre =>
          simp only [List.cons_append] at hpre
          rw [List.cons_prefix_cons, List.cons_prefix_cons] at hpre
          have := hpre.2.2.subset (List.mem_append_right _ List.mem_cons_self)
          exact absurd rfl (ht _ this)
      rcases hp with rfl | ⟨i, rfl⟩
      · exact this _ (by simp) hpre
      · exact this _ (by simp) hpre
    rw [hk2] at hat'
    obtain ⟨top, res, ty, rfl, h1, h2, _⟩ := hr
    simp only [Val.WF] at hw
    cases hat' with
    | key h3 h4 =>
      have := (dlookup_of_mem hw.1 h1).symm.trans (dlookup_of_mem hw.1 h3)
      injection this with this
      subst this
      have hwr := wfDict_mem_cond hw.2 h1
      simp only [Val.WF] at hwr
      cases h4 with
      | key h5 h6 =>
        have := (dlookup_of_mem hwr.1 h2).symm.trans (dlookup_of_mem hwr.1 h5)
        injection this with this
        subst this
        cases h6
  · intro sec name r' h1 h2
    rcases hp with rfl | ⟨i, rfl⟩
    · simp at h1; obtain ⟨rfl, rfl, _⟩ := h1; exact he
    · simp at h1; obtain ⟨rfl, rfl, _⟩ := h1; exact he

/-- **C64** A resource that depends on another, and exists in a deployment without it, is reported at the value of
`DependsOn`, with a scenario the deployment belongs to (under the restrictions of C22). -/
theorem C64_missing_partial {H : Val → String} {fuel : Nat} {enum : String → List String → List String}
    {t : List (Key × Val)} {tb : CondTable} {b : String → Bool} {k : Key} {p : Path} {s rc : String} {r : List (Key × Val)}
    {res : List (Path × DepKind)} (h : dependsOnRule enum tb (.dict t) = .ok res) (hd : DependsOnAt (.dict t) k p (.str s))
    (hr : TypedResource (.dict t) (.str s) r) (hek : EntryOk (.dict t) "Resources" k) (hes : EntryOk (.dict t) "Resources" (.str s))
    (hrc : ResourceCondition (.dict t) (.str s) rc)
    (hdep : Deployment H fuel enum t tb (fun c => c = rc ∨ ResourceCondition (.dict t) k c) b)
    (hex : ∀ c, ResourceCondition (.dict t) k c → b c = true) (hgone : b rc = false) :
    ∃ sc, (p, .mayNotExist sc) ∈ res ∧ dlookup (Key.str rc) sc = some (some false) ∧
      ∀ c, ResourceCondition (.dict t) k c → dlookup (Key.str c) sc = some (some true) := by
  have hreq := dependsOn_requires hd
  have hcon : ∀ c, (c = rc ∨ ResourceCondition (.dict t) k c) ↔ Concerned (.dict t) p rc c := by
    intro c
    simp [Concerned, hreq]
  obtain ⟨scs, hscs, sc, hsc, hl⟩ := deployment_available (deployment_congr hcon hdep) (dependsOn_goodPath hdep.wf hd hek) hes hrc
    (by intro c x hx; obtain ⟨rfl, h2⟩ := (hreq c x).1 hx; exact hex c h2) hgone
    (by intro hx; exact absurd ((hreq _ _).1 hx).1 (by simp))
  have h1 := hl rc (.inl rfl)
  rw [hgone] at h1
  refine ⟨sc, ((C64_exact hdep.wf h p).2.2 sc).2 ⟨by rintro rfl; simp [dlookup] at h1, k, s, r, scs, hd, hr, hscs, hsc⟩, h1, ?_⟩
  intro c hc
  rw [hl c (.inr ⟨true, (hreq c true).2 ⟨rfl, hc⟩⟩), hex c hc]

/-- **C64** Every scenario reported can occur, under the restrictions of C23: there is an assignment of the parameters in
which the resource exists and the one it depends on does not. -/
theorem C64_real_partial {H : Val → String} {fuel : Nat} {enum : String → List String → List String}
    {t : List (Key × Val)} {tb : CondTable} {p : Path} {sc : Scenario} {res : List (Path × DepKind)}
    (hw : (Val.dict t).WF) (hno : NoHashLiterals H (conditionsOf t)) (href : RefsDistinct H)
    (hinit : Conditions.init H fuel (.dict t) = (tb, none)) (hpl : PlainAllowed t)
    (h : dependsOnRule enum tb (.dict t) = .ok res) (hm : (p, .mayNotExist sc) ∈ res) :
    ∃ k s, DependsOnAt (.dict t) k p (.str s) ∧ (EntryOk (.dict t) "Resources" k → EntryOk (.dict t) "Resources" (.str s) →
      ∃ rc, ResourceCondition (.dict t) (.str s) rc ∧ rc ≠ "" ∧
      ((∀ c, (c = rc ∨ ResourceCondition (.dict t) k c) →
        ∃ v, dlookup (Key.str c) (conditionsOf t) = some v ∧ WellFormed (conditionsOf t) v) →
      (∀ req : List Key, req.Nodup → (∀ c, c ∈ req ↔ ∃ s, c = .str s ∧ (s = rc ∨ ResourceCondition (.dict t) k s)) →
        Related (conditionsOf t) req) →
      ∃ σ, Respects H σ ∧ Permitted t σ ∧
        (∃ v, dlookup (Key.str rc) (conditionsOf t) = some v ∧ Evals OneSided (conditionsOf t) σ v false) ∧
        ∀ c, ResourceCondition (.dict t) k c →
          ∃ v, dlookup (Key.str c) (conditionsOf t) = some v ∧ Evals OneSided (conditionsOf t) σ v true)) := by
  obtain ⟨_, k, s, r, scs, hd, hr, hscs, hsc⟩ := ((C64_exact hw h p).2.2 sc).1 hm
  refine ⟨k, s, hd, fun hek hes => ?_⟩
  have hreq := dependsOn_requires hd
  obtain ⟨rc, hrc⟩ : ∃ rc, ResourceCondition (.dict t) (.str s) rc := by
    obtain ⟨c, hc, ⟨rfl, _⟩ | ⟨n, rfl, hs⟩⟩ := entryCondition_spec hw hes
    · exfalso
      unfold isResourceAvailable at hscs
      rw [hc] at hscs
      split at hscs
      · cases hscs
      · simp [Val.truthy] at hscs; subst hscs; cases hsc
    · refine ⟨n, (hs _).2 rfl, ?_⟩
      rintro rfl
      unfold isResourceAvailable at hscs
      rw [hc] at hscs
      split at hscs
      · cases hscs
      · simp [Val.truthy] at hscs; subst hscs; cases hsc
  refine ⟨rc, hrc, hrc.2, fun hev hrel => ?_⟩
  obtain ⟨σ, s1, s2, s3, s4⟩ := C31_report_real_partial H fuel enum t tb p (.str s) rc scs hw hno href hinit hpl
    (dependsOn_goodPath hw hd hek) hes hrc
    (by
      rintro c (hc | ⟨x, hx⟩)
      · exact hev c (.inl hc)
      · exact hev c (.inr ((hreq c x).1 hx).2))
    (by rintro c ⟨_, hx⟩; exact absurd ((hreq c _).1 hx).1 (by simp))
    (by
      intro req hask
      refine hrel req hask.1 fun c => ?_
      rw [hask.2]
      simp [hreq]) hscs sc hsc
  exact ⟨σ, s1, s2, s3, fun c hc => s4 c true ((hreq c true).2 ⟨rfl, hc⟩)⟩

/-! ### Superfluous dependencies -/

/-- every `Fn::GetAtt` has a list with elements -/
def ListGetAtts (t : Val) : Prop := ∀ q v, At t (q ++ [.str "Fn::GetAtt"]) v → ∃ x xs, v = .list (x :: xs)

/-- below the resource `k`, at `q`, stands a `Ref` to `v` or an `Fn::GetAtt` with a list that begins with `v` -/
inductive AlreadyNeeded (t : Val) (k : Key) (v : Val) : Path → Prop
  | ref {q} : [.str "Resources", k] <+: q ++ [.str "Ref"] → At t (q ++ [.str "Ref"]) v → AlreadyNeeded t k v (q ++ [.str "Ref"])
  | getAtt {q xs} : [.str "Resources", k] <+: q ++ [.str "Fn::GetAtt"] → At t (q ++ [.str "Fn::GetAtt"]) (.list (v :: xs)) →
      AlreadyNeeded t k v (q ++ [.str "Fn::GetAtt"])

theorem mem_referencesOf {t : Val} (hw : t.WF) (fn : String) (k : Key) (p : Path) (v : Val) :
    (p, v) ∈ referencesOf fn t (.dict []) k ↔ At t p v ∧ (∃ q, p = q ++ [.str fn]) ∧ [.str "Resources", k] <+: p := by
  unfold referencesOf
  rw [List.mem_filter, (C27_search_partial fn t hw).1]
  constructor
  · rintro ⟨⟨h1, h2⟩, h3⟩
    refine ⟨h1, h2, ?_⟩
    simp only at h3
    split at h3
    · rename_i s r rest
      rw [Bool.and_eq_true, beq_iff_eq, beq_iff_eq] at h3
      obtain ⟨rfl, rfl⟩ := h3
      exact ⟨rest, rfl⟩
    · cases h3
  · rintro ⟨h1, h2, rest, rfl⟩
    exact ⟨⟨h1, h2⟩, by simp⟩

theorem obsoleteValue_spec {t : Val} (hw : t.WF) (hl : ListGetAtts t) (k : Key) (v : Val) (path : Path) :
    ∃ l, obsoleteValue t (.dict []) k v path = .ok l ∧ ∀ p q, (p, q) ∈ l ↔ p = path ∧ AlreadyNeeded t k v q := by
  obtain ⟨atts, hatts⟩ : ∃ atts, collectM (fun f : Path × Val =>
      match firstOf f.2 with
      | .error e => .error e
      | .ok w => .ok (if w = v then [(path, f.1)] else [])) (referencesOf "Fn::GetAtt" t (.dict []) k) = .ok atts := by
    apply collectM_ok
    rintro ⟨p, w⟩ hf
    obtain ⟨hat, ⟨q, rfl⟩, _⟩ := (mem_referencesOf hw _ _ _ _).1 hf
    obtain ⟨x, xs, rfl⟩ := hl q w hat
    exact ⟨_, rfl⟩
  have hv : obsoleteValue t (.dict []) k v path =
      .ok (((referencesOf "Ref" t (.dict []) k).filter (fun f => f.2 = v)).map (fun f => (path, f.1)) ++ atts) := by
    unfold obsoleteValue
    split
    · rename_i e he
      exact absurd (he.symm.trans hatts) (by simp)
    · rename_i l he
      have := he.symm.trans hatts
      injection this with this
      rw [this]
  refine ⟨_, hv, fun p q => ?_⟩
  rw [List.mem_append, mem_collectM hatts]
  constructor
  · rintro (h | ⟨⟨p', w⟩, hf, l, h1, h2⟩)
    · obtain ⟨⟨p', w⟩, h1, h2⟩ := List.mem_map.1 h
      injection h2 with h2 h3
      subst h2 h3
      obtain ⟨h5, h4⟩ := List.mem_filter.1 h1
      have : w = v := by simpa using h4
      subst this
      obtain ⟨hat, ⟨q', rfl⟩, hp⟩ := (mem_referencesOf hw _ _ _ _).1 h5
      exact ⟨rfl, .ref hp hat⟩
    · obtain ⟨hat, ⟨q', rfl⟩, hp⟩ := (mem_referencesOf hw _ _ _ _).1 hf
      obtain ⟨x, xs, rfl⟩ := hl q' w hat
      simp only [firstOf] at h1
      injection h1 with h1
      subst h1
      split at h2
      · rename_i hx
        subst hx
        simp only [List.mem_cons, Prod.mk.injEq, List.not_mem_nil, or_false] at h2
        obtain ⟨rfl, rfl⟩ := h2
        exact ⟨rfl, .getAtt hp hat⟩
      · cases h2
  · rintro ⟨rfl, h⟩
    cases h with
    | ref hp hat =>
      exact .inl (List.mem_map.2 ⟨(_, v), List.mem_filter.2 ⟨(mem_referencesOf hw _ _ _ _).2 ⟨hat, ⟨_, rfl⟩, hp⟩, by simp⟩, rfl⟩)
    | getAtt hp hat =>
      exact .inr ⟨(_, _), (mem_referencesOf hw _ _ _ _).2 ⟨hat, ⟨_, rfl⟩, hp⟩, _, rfl, by simp⟩

/-- **C65**, what holds: if every `Fn::GetAtt` has a list, the rule ends normally and reports exactly the values of
`DependsOn` that a `Ref` or `Fn::GetAtt` of the same resource names, each with the place of that reference. Missing for the
full statement: `Fn::GetAtt` with a text. -/
theorem C65_exact_partial {t : Val} (hw : t.WF) (ht : ∃ top, t = .dict top) (hl : ListGetAtts t) :
    ∃ res, obsoleteRule t (.dict []) = .ok res ∧
      ∀ p q, (p, q) ∈ res ↔ ∃ k v, DependsOnAt t k p v ∧ AlreadyNeeded t k v q := by
  obtain ⟨top, rfl⟩ := ht
  obtain ⟨rs, hrs⟩ : ∃ rs, getResources (.dict top) = .ok rs := by
    unfold getResources
    simp only [Val.getD]
    cases (dlookup (Key.str "Resources") top).getD (.dict []) <;> exact ⟨_, rfl⟩
  obtain ⟨res, hres⟩ : ∃ res, collectM (fun kv =>
      match dependsOnValues kv.1 kv.2 with
      | .error e => .error e
      | .ok vs => collectM (fun vp => obsoleteValue (.dict top) (.dict []) kv.1 vp.1 vp.2) vs) rs = .ok res := by
    apply collectM_ok
    rintro ⟨k, v⟩ hkv
    obtain ⟨r, rfl, hr⟩ := (mem_getResources hw hrs k v).1 hkv
    obtain ⟨vs, hvs, _⟩ := dependsOnValues_spec hw hr
    simp only [hvs]
    exact collectM_ok fun vp _ => by
      obtain ⟨l, h, _⟩ := obsoleteValue_spec hw hl k vp.1 vp.2
      exact ⟨l, h⟩
  refine ⟨res, ?_, fun p q => ?_⟩
  · unfold obsoleteRule
    rw [hrs]
    exact hres
  · rw [mem_eachDependsOn (f := fun k v p => obsoleteValue (.dict top) (.dict []) k v p) hw hrs hres]
    constructor
    · rintro ⟨k, p', v, l, hd, h1, h2⟩
      obtain ⟨l', h3, h4⟩ := obsoleteValue_spec hw hl k v p'
      rw [h1] at h3
      injection h3 with h3
      subst h3
      obtain ⟨rfl, h5⟩ := (h4 p q).1 h2
      exact ⟨k, v, hd, h5⟩
    · rintro ⟨k, v, hd, hn⟩
      obtain ⟨l', h3, h4⟩ := obsoleteValue_spec hw hl k v p
      exact ⟨k, p, v, l', hd, h3, (h4 p q).2 ⟨rfl, hn⟩⟩

/-- **C65** in full: what is reported is a dependency on a resource that the same resource mentions, and all such are
reported. -/
def C65_statement : Prop := ∀ (t : Val) (res : List ObsoleteReport), t.WF → obsoleteRule t (.dict []) = .ok res →
  ∀ p q, (p, q) ∈ res ↔ ∃ k R, DependsOnAt t k p (.str R) ∧ [.str "Resources", k] <+: q ∧ Mentions t q R

/-! ### Witnesses -/

/-- the witness template of the conditions with resources -/
def exRel (rs : List (Key × Val)) : List (Key × Val) := exOne ++ [(.str "Resources", .dict rs)]

theorem exRel_wf {rs : List (Key × Val)} (h : (Val.dict rs).WF) : (Val.dict (exRel rs)).WF := by
  simp only [Val.WF] at h
  simp [exRel, exOne, exEquals, refTo, Val.WF, Val.WFDict, Val.WFList, Key.toVal, h]

theorem exRel_allows {rs : List (Key × Val)} {p : Key} {vals : List Val} (h : Allows (exRel rs) p vals) :
    p = .str "P1" ∧ vals = [.str "a", .str "b"] := exOne_allows h

/-- a deployment of the witness template with resources and the parameter `s` -/
theorem exRel_deployment {s : String} {rs : List (Key × Val)} (hw : (Val.dict rs).WF)
    (hinit : (Conditions.init exHash 5 (.dict (exRel rs))).2 = none)
    (hs : s = "a" ∨ s = "b") {P : String → Prop} {b : String → Bool}
    (hP : ∀ c, P c → c = "C1") (hb : b "C1" = (s == "a")) :
    Deployment exHash 5 (fun _ s => s) (exRel rs) (Conditions.init exHash 5 (.dict (exRel rs))).1 P b where
  enumerates := fun _ _ _ => Iff.rfl
  wf := exRel_wf hw
  noHash := exOne_noLit
  init := Prod.ext rfl hinit
  allowed := by
    intro p vals ha
    obtain ⟨_, rfl⟩ := exRel_allows ha
    simp [PlainLit]
  values := by
    refine ⟨fun _ => s, fun _ _ _ => rfl, ?_, ?_⟩
    · intro p vals ha _
      obtain ⟨_, rfl⟩ := exRel_allows ha
      rcases hs with rfl | rfl
      · exact ⟨.str "a", by simp, rfl⟩
      · exact ⟨.str "b", by simp, rfl⟩
    · intro c hc
      obtain rfl := hP c hc
      exact ⟨_, rfl, hb ▸ exOne_evals s⟩
  small := by
    intro req hn hm
    left
    match req, hn, hm with
    | [], _, _ => simp
    | [_], _, _ => simp
    | x :: y :: _, hn, hm =>
      have hx := hP x ((hm x).1 (by simp))
      have hy := hP y ((hm y).1 (by simp))
      simp [hx, hy] at hn

/-- a resource under a condition, and one without that depends on it and has the properties `ps` -/
def exRelRes (ps : List (Key × Val)) : List (Key × Val) :=
  [(.str "R", .dict [(.str "Type", .str "A"), (.str "Condition", .str "C1")]),
   (.str "S", .dict [(.str "Type", .str "A"), (.str "DependsOn", .str "R"), (.str "Properties", .dict ps)])]

def exRelTable (ps : List (Key × Val)) : CondTable := (Conditions.init exHash 5 (.dict (exRel (exRelRes ps)))).1

def exRelSub : List (Key × Val) := [(.str "X", .dict [(.str "Fn::Sub", .str "${R}")])]
def exRelRef : List (Key × Val) := [(.str "X", .dict [(.str "Ref", .str "R")])]

theorem exRelRes_wf {ps : List (Key × Val)} (h : (Val.dict ps).WF) : (Val.dict (exRelRes ps)).WF := by
  simp only [Val.WF] at h
  simp [exRelRes, Val.WF, Val.WFDict, h]

theorem exRel_at {ps : List (Key × Val)} {k : String} {q : Path} {v : Val}
    (h : At (.dict (exRel (exRelRes ps))) (.str "Resources" :: .str k :: q) v) :
    (k = "R" ∧ At (.dict [(.str "Type", .str "A"), (.str "Condition", .str "C1")]) q v) ∨
    (k = "S" ∧ At (.dict [(.str "Type", .str "A"), (.str "DependsOn", .str "R"), (.str "Properties", .dict ps)]) q v) := by
  cases h with
  | key h1 h2 =>
    simp [exRel, exOne] at h1
    subst h1
    cases h2 with
    | key h3 h4 =>
      simp [exRelRes] at h3
      rcases h3 with ⟨rfl, rfl⟩ | ⟨rfl, rfl⟩
      · exact .inl ⟨rfl, h4⟩
      · exact .inr ⟨rfl, h4⟩

theorem exRel_noCondition {ps : List (Key × Val)} {c : String} :
    ¬ ResourceCondition (.dict (exRel (exRelRes ps))) (.str "S") c := by
  rintro ⟨h, _⟩
  rcases exRel_at h with ⟨h, _⟩ | ⟨_, h⟩
  · simp at h
  · cases h with
    | key h1 _ => simp at h1

theorem exRel_condition {ps : List (Key × Val)} {c : String} :
    ResourceCondition (.dict (exRel (exRelRes ps))) (.str "R") c ↔ c = "C1" := by
  constructor
  · rintro ⟨h, _⟩
    rcases exRel_at h with ⟨_, h⟩ | ⟨h, _⟩
    · cases h with
      | key h1 h2 => simp at h1; subst h1; cases h2; rfl
    · simp at h
  · rintro rfl
    refine ⟨.key (v := .dict (exRelRes ps)) (by simp [exRel]) (.key List.mem_cons_self (.key (List.mem_cons_of_mem _ List.mem_cons_self) .here)), by simp⟩

theorem exRel_entry {ps : List (Key × Val)} {k : String} (hk : k = "R" ∨ k = "S") :
    EntryOk (.dict (exRel (exRelRes ps))) "Resources" (.str k) := by
  rcases hk with rfl | rfl
  · refine ⟨exRelRes ps, _, .key (by simp [exRel]) .here, List.mem_cons_self, ?_⟩
    simp
  · refine ⟨exRelRes ps, _, .key (by simp [exRel]) .here, List.mem_cons_of_mem _ List.mem_cons_self, ?_⟩
    simp

theorem exRel_noRequires {ps : List (Key × Val)} {q : Path} {c : String} {x : Bool} (hq : Key.str "Fn::If" ∉ q) :
    ¬ Requires (.dict (exRel (exRelRes ps))) (.str "Resources" :: .str "S" :: q) c x := by
  intro h
  have hno : Key.str "Fn::If" ∉ Key.str "Resources" :: .str "S" :: q := by simp [hq]
  cases h with
  | yes h1 => rw [h1] at hno; simp at hno
  | no h1 => rw [h1] at hno; simp at hno
  | entry h1 h2 h3 h4 =>
    simp at h1
    obtain ⟨rfl, rfl, _⟩ := h1
    exact exRel_noCondition ⟨h3, h4⟩

theorem exRel_concerned {ps : List (Key × Val)} {q : Path} {c : String} (hq : Key.str "Fn::If" ∉ q) :
    Concerned (.dict (exRel (exRelRes ps))) (.str "Resources" :: .str "S" :: q) "C1" c → c = "C1" := by
  rintro (h | ⟨x, h⟩)
  · exact h
  · exact absurd h (exRel_noRequires hq)

theorem exRel_goodPath {ps : List (Key × Val)} {q : Path} (hq : Key.str "Fn::If" ∉ q)
    (hat : ∃ u, At (.dict (exRel (exRelRes ps))) (Key.str "Resources" :: .str "S" :: q).dropLast u) :
    GoodPath (.dict (exRel (exRelRes ps))) (.str "Resources" :: .str "S" :: q) where
  ne := by simp
  exists_ := hat
  last := by
    intro h
    have := List.mem_of_getLast? h
    simp [hq] at this
  names := by
    intro q' c a b h _
    have := h.subset (List.mem_append_right _ List.mem_cons_self)
    simp [hq] at this
  entry := by
    intro sec name r h _
    simp at h
    obtain ⟨rfl, rfl, _⟩ := h
    exact exRel_entry (.inr rfl)

/-- **C63** A reference inside `Fn::Sub` is not checked. -/
theorem C63_violated : ¬ C63_statement := by
  intro h
  have hq : Key.str "Fn::If" ∉ [Key.str "Properties", .str "X", .str "Fn::Sub"] := by decide
  obtain ⟨r, hr, _⟩ := h exHash 5 (fun _ s => s) (exRel (exRelRes exRelSub)) (exRelTable exRelSub) (fun _ => false)
    [.str "Resources", .str "S", .str "Properties", .str "X", .str "Fn::Sub"] "R" "C1" []
    (.sub (q := [.str "Resources", .str "S", .str "Properties", .str "X"]) (s := "${R}") (n := "R".toList)
      (.key (v := .dict (exRelRes exRelSub)) (by simp [exRel]) (.key (List.mem_cons_of_mem _ List.mem_cons_self)
        (.key (v := .dict exRelSub) (by simp) (.key List.mem_cons_self (.key List.mem_cons_self .here)))))
      ⟨⟨[], [], rfl⟩, by decide, by decide⟩ ⟨by decide, .inl rfl⟩)
    (by decide) (by decide) (by decide)
    (exRel_goodPath hq ⟨_, .key (v := .dict (exRelRes exRelSub)) (by simp [exRel]) (.key (List.mem_cons_of_mem _ List.mem_cons_self)
        (.key (v := .dict exRelSub) (by simp) (.key List.mem_cons_self .here)))⟩)
    (exRel_entry (.inl rfl)) (exRel_condition.2 rfl)
    (exRel_deployment (s := "b") (exRelRes_wf (by simp [exRelSub, Val.WF, Val.WFDict])) (by decide) (.inr rfl)
      (fun _ hc => exRel_concerned hq hc) rfl)
    (fun c x hx => absurd hx (exRel_noRequires hq)) rfl (by decide)
  cases hr

/-- the hypotheses of `C63_complete_partial` are met -/
example : ∃ res, relationsRule (fun _ s => s) (exRelTable exRelRef) (.dict (exRel (exRelRes exRelRef))) (.dict []) = .ok res ∧
    ∃ r ∈ res, r.path = [.str "Resources", .str "S", .str "Properties", .str "X", .str "Ref"] ∧ r.name = .str "R" ∧
      dlookup (Key.str "C1") r.scenario = some (some false) := by
  have hq : Key.str "Fn::If" ∉ [Key.str "Properties", .str "X", .str "Ref"] := by decide
  obtain ⟨res, hres⟩ : ∃ res, relationsRule (fun _ s => s) (exRelTable exRelRef) (.dict (exRel (exRelRes exRelRef))) (.dict []) = .ok res :=
    ⟨_, rfl⟩
  refine ⟨res, hres, ?_⟩
  obtain ⟨r, h1, h2, h3, h4⟩ := C63_complete_partial (H := exHash) (fuel := 5) (b := fun _ => false) (R := "R") (rc := "C1")
    (p := [.str "Resources", .str "S", .str "Properties", .str "X", .str "Ref"])
    (.ref (q := [.str "Resources", .str "S", .str "Properties", .str "X"])
      (.key (v := .dict (exRelRes exRelRef)) (by simp [exRel]) (.key (List.mem_cons_of_mem _ List.mem_cons_self)
        (.key (v := .dict exRelRef) (by simp) (.key List.mem_cons_self (.key List.mem_cons_self .here))))))
    (by decide) (by decide) (by decide)
    (exRel_goodPath hq ⟨_, .key (v := .dict (exRelRes exRelRef)) (by simp [exRel]) (.key (List.mem_cons_of_mem _ List.mem_cons_self)
        (.key (v := .dict exRelRef) (by simp) (.key List.mem_cons_self .here)))⟩)
    (exRel_entry (.inl rfl)) (exRel_condition.2 rfl)
    (exRel_deployment (s := "b") (exRelRes_wf (by simp [exRelRef, Val.WF, Val.WFDict])) (by decide) (.inr rfl)
      (fun _ hc => exRel_concerned hq hc) rfl)
    (fun c x hx => absurd hx (exRel_noRequires hq)) rfl (exRel_noRequires hq) hres
  exact ⟨r, h1, h2, h3, h4 "C1" (.inl rfl)⟩

/-- **C63** A `Ref` of a list or an object makes the rule raise: where it ends normally, there is none. -/
theorem C63_hashable {enum : String → List String → List String} {tb : CondTable} {t : Val} {res : List RelReport} (hw : t.WF)
    (hr : ∃ kvs, t.getD "Resources" (.dict []) = .ok (.dict kvs)) (h : relationsRule enum tb t (.dict []) = .ok res) {q : Path} {v : Val}
    (hat : At t (q ++ [.str "Ref"]) v) : (∀ xs, v ≠ .list xs) ∧ ∀ kvs, v ≠ .dict kvs := by
  have hf := ((C27_search_partial "Ref" t hw).1 (q ++ [.str "Ref"]) v).2 ⟨hat, q, rfl⟩
  unfold relationsRule at h
  split at h
  · cases h
  · rename_i refs hrefs
    obtain ⟨l, hl⟩ := collectM_each hrefs _ hf
    obtain ⟨kvs, hr⟩ := hr
    constructor
    · rintro xs rfl
      simp only [relOne, notPseudo, if_true, availableAt, toKey, hr] at hl
      split at hl
      · cases hl
      · rename_i hx
        split at hx <;> cases hx
    · rintro xs rfl
      simp only [relOne, notPseudo, if_true, availableAt, toKey, hr] at hl
      split at hl
      · cases hl
      · rename_i hx
        split at hx <;> cases hx

/-- **C63** A template with a `Ref` to `Fn::If` makes the rule raise. -/
theorem C63_crash_violated : ∃ t : Val, t.WF ∧ ∃ e, relationsRule (fun _ s => s) (Conditions.init exHash 5 t).1 t (.dict []) = .error e :=
  ⟨.dict (exRel [(.str "S", .dict [(.str "Type", .str "A"),
      (.str "Properties", .dict [(.str "X", .dict [(.str "Ref", .str "Fn::If")])])])]),
    exRel_wf (by simp [Val.WF, Val.WFDict]), _, rfl⟩

theorem exRel_typed {ps : List (Key × Val)} :
    TypedResource (.dict (exRel (exRelRes ps))) (.str "S")
      [(.str "Type", .str "A"), (.str "DependsOn", .str "R"), (.str "Properties", .dict ps)] ∧
    TypedResource (.dict (exRel (exRelRes ps))) (.str "R") [(.str "Type", .str "A"), (.str "Condition", .str "C1")] :=
  ⟨⟨_, exRelRes ps, .str "A", rfl, by simp [exRel], List.mem_cons_of_mem _ List.mem_cons_self, List.mem_cons_self, by simp⟩,
   ⟨_, exRelRes ps, .str "A", rfl, by simp [exRel], List.mem_cons_self, List.mem_cons_self, by simp⟩⟩

theorem exRel_dependsOn {ps : List (Key × Val)} :
    DependsOnAt (.dict (exRel (exRelRes ps))) (.str "S") [.str "Resources", .str "S", .str "DependsOn"] (.str "R") :=
  .one exRel_typed.1 (List.mem_cons_of_mem _ List.mem_cons_self) rfl (by simp)

/-- the hypotheses of `C64_missing_partial` are met -/
example : ∃ res, dependsOnRule (fun _ s => s) (exRelTable exRelRef) (.dict (exRel (exRelRes exRelRef))) = .ok res ∧
    ∃ sc, ([.str "Resources", .str "S", .str "DependsOn"], .mayNotExist sc) ∈ res ∧ dlookup (Key.str "C1") sc = some (some false) := by
  obtain ⟨res, hres⟩ : ∃ res, dependsOnRule (fun _ s => s) (exRelTable exRelRef) (.dict (exRel (exRelRes exRelRef))) = .ok res :=
    ⟨_, rfl⟩
  refine ⟨res, hres, ?_⟩
  obtain ⟨sc, h1, h2, _⟩ := C64_missing_partial (H := exHash) (fuel := 5) (b := fun _ => false) hres exRel_dependsOn exRel_typed.2
    (exRel_entry (.inr rfl)) (exRel_entry (.inl rfl)) (exRel_condition.2 rfl)
    (exRel_deployment (s := "b") (exRelRes_wf (by simp [exRelRef, Val.WF, Val.WFDict])) (by decide) (.inr rfl)
      (by rintro c (rfl | hc); · rfl
          · exact absurd hc exRel_noCondition) rfl)
    (fun c hc => absurd hc exRel_noCondition) rfl
  exact ⟨sc, h1, h2⟩

/-- **C64**, the full statement of its second half: every scenario reported can occur. There is a permitted assignment
of the parameters under which the condition of the resource depended on is false. -/
def C64_statement : Prop :=
  ∀ (H : Val → String) (fuel : Nat) (enum : String → List String → List String) (t : List (Key × Val)) (tb : CondTable)
    (p : Path) (sc : Scenario) (res : List (Path × DepKind)),
    Enumerates enum → (Val.dict t).WF → NoHashLiterals H (conditionsOf t) → RefsDistinct H →
    Conditions.init H fuel (.dict t) = (tb, none) → dependsOnRule enum tb (.dict t) = .ok res → (p, .mayNotExist sc) ∈ res →
    ∃ k s rc v σ, DependsOnAt (.dict t) k p (.str s) ∧ ResourceCondition (.dict t) (.str s) rc ∧
      dlookup (Key.str rc) (conditionsOf t) = some v ∧ Respects H σ ∧ Permitted t σ ∧ Evals AnyEquals (conditionsOf t) σ v false

/-- a condition that compares a text with itself -/
def exSameText : List (Key × Val) :=
  [(.str "Conditions", .dict [(.str "C1", exEquals (.str "a") (.str "a"))]), (.str "Resources", .dict (exRelRes []))]

/-- **C64** A condition that compares two equal texts is always true, yet the resource under it is said to be missing. -/
theorem C64_literals_violated : ¬ C64_statement := by
  intro h
  obtain ⟨k, s, rc, v, σ, _, _, hv, _, _, he⟩ := h refHash 5 (fun _ s => s) exSameText (Conditions.init refHash 5 (.dict exSameText)).1
    [.str "Resources", .str "S", .str "DependsOn"] [(.str "C1", some false)] _ (fun _ _ _ => Iff.rfl)
    (by simp [exSameText, exRelRes, exEquals, Val.WF, Val.WFDict, Val.WFList])
    (by
      intro s hs v hv
      obtain ⟨l, hl⟩ := refHash_head v
      rw [hl] at hv
      have hv' := congrArg String.toList hv
      simp [conditionsOf, exSameText, dlookup, LitInDict, LitIn, LitInList, exEquals] at hs
      subst hs
      simp at hv')
    refHash_distinct (Prod.ext rfl (by decide)) rfl (by decide)
  simp only [conditionsOf, exSameText, dlookup] at hv
  by_cases hc : "C1" = rc
  · subst hc
    simp [dlookup] at hv
    subst hv
    obtain ⟨x, y, hx, hy, he⟩ := evals_equals_inv he
    cases hx with
    | lit hx =>
      cases hy with
      | lit hy =>
        rw [hx] at hy
        injection hy with hy
        subst hy
        simp at he
  · simp [dlookup, hc] at hv

/-- A value of `DependsOn` that is no text, and one that names no resource. -/
example : dependsOnRule (fun _ s => s) (Conditions.init exHash 5 (.dict exOne)).1
    (.dict [(.str "Resources", .dict [(.str "S", .dict [(.str "Type", .str "A"), (.str "DependsOn", .list [.str "Q", .int 3])])])]) =
    .ok [([.str "Resources", .str "S", .str "DependsOn", .int 0], .unknown),
      ([.str "Resources", .str "S", .str "DependsOn", .int 1], .notText)] := by decide

/-- the hypotheses of `C65_exact_partial` are met -/
example : ∃ res, obsoleteRule (.dict (exRel (exRelRes exRelRef))) (.dict []) = .ok res ∧
    ([.str "Resources", .str "S", .str "DependsOn"], [.str "Resources", .str "S", .str "Properties", .str "X", .str "Ref"]) ∈ res := by
  have hl : ListGetAtts (.dict (exRel (exRelRes exRelRef))) := by
    intro q v h
    have hw : (Val.dict (exRel (exRelRes exRelRef))).WF := exRel_wf (exRelRes_wf (by simp [exRelRef, Val.WF, Val.WFDict]))
    have := ((C27_search_partial "Fn::GetAtt" _ hw).1 _ _).2 ⟨h, _, rfl⟩
    have hn : searchDeepKeys "Fn::GetAtt" (.dict (exRel (exRelRes exRelRef))) (.dict []) = [] := by decide
    rw [hn] at this
    cases this
  obtain ⟨res, h, hm⟩ := C65_exact_partial (exRel_wf (exRelRes_wf (by simp [exRelRef, Val.WF, Val.WFDict]))) ⟨_, rfl⟩ hl
  refine ⟨res, h, (hm _ _).2 ⟨_, _, exRel_dependsOn, .ref (q := [.str "Resources", .str "S", .str "Properties", .str "X"]) ⟨_, rfl⟩ ?_⟩⟩
  exact .key (v := .dict (exRelRes exRelRef)) (by simp [exRel]) (.key (List.mem_cons_of_mem _ List.mem_cons_self)
        (.key (v := .dict exRelRef) (by simp) (.key List.mem_cons_self (.key List.mem_cons_self .here))))

/-- the two resources with an `Fn::GetAtt` whose argument is a text -/
def exTextAtt (dep att : String) : Val :=
  .dict [(.str "Resources", .dict [(.str "S", .dict [(.str "Type", .str "A"), (.str "DependsOn", .str dep),
    (.str "Properties", .dict [(.str "X", .dict [(.str "Fn::GetAtt", .str att)])])])])]

theorem exTextAtt_wf (dep att : String) : (exTextAtt dep att).WF := by
  simp [exTextAtt, Val.WF, Val.WFDict]

theorem dependsOnAt_at {t : Val} {k : Key} {p : Path} {v : Val} (h : DependsOnAt t k p v) : At t p v := by
  cases h with
  | one hr hm =>
    have := at_append (typed_at hr) (.key hm .here)
    simpa using this
  | item hr hm hi =>
    have := at_append (typed_at hr) (.key hm (.idx hi .here))
    simpa using this

/-- **C65** The name is compared with the first character of a text: a dependency on `Q` is called superfluous though only
`Queue` is mentioned. -/
theorem C65_sound_violated : ¬ C65_statement := by
  intro h
  have hr := (h (exTextAtt "Q" "Queue.Arn") [([.str "Resources", .str "S", .str "DependsOn"],
    [.str "Resources", .str "S", .str "Properties", .str "X", .str "Fn::GetAtt"])] (exTextAtt_wf _ _) (by decide) _ _).1 List.mem_cons_self
  obtain ⟨k, R, hd, hpre, hm⟩ := hr
  have h1 : At (exTextAtt "Q" "Queue.Arn") [.str "Resources", .str "S", .str "DependsOn"] (.str "Q") :=
    .key List.mem_cons_self (.key List.mem_cons_self (.key (List.mem_cons_of_mem _ List.mem_cons_self) .here))
  have h2 : At (exTextAtt "Q" "Queue.Arn") [.str "Resources", .str "S", .str "Properties", .str "X", .str "Fn::GetAtt"] (.str "Queue.Arn") :=
    .key List.mem_cons_self (.key List.mem_cons_self (.key (List.mem_cons_of_mem _ (List.mem_cons_of_mem _ List.mem_cons_self))
          (.key List.mem_cons_self (.key List.mem_cons_self .here))))
  have hR := at_det (exTextAtt_wf _ _) (dependsOnAt_at hd) h1
  injection hR with hR
  subst hR
  obtain ⟨q, f, v, _, hat, ⟨_, rfl⟩ | ⟨_, ⟨xs, rfl⟩ | ⟨s, rfl, ho⟩⟩⟩ := mentions_value hm
  · have := at_det (exTextAtt_wf _ _) hat h2
    simp at this
  · have := at_det (exTextAtt_wf _ _) hat h2
    cases this
  · have := at_det (exTextAtt_wf _ _) hat h2
    injection this with this
    subst this
    have := beforeDot_of_owner ho
    revert this
    decide

/-- **C65** and a dependency on the resource a text names is not found. -/
theorem C65_complete_violated : ¬ C65_statement := by
  intro h
  have hr := (h (exTextAtt "Queue" "Queue.Arn") [] (exTextAtt_wf _ _) (by decide) [.str "Resources", .str "S", .str "DependsOn"]
    [.str "Resources", .str "S", .str "Properties", .str "X", .str "Fn::GetAtt"]).2
    ⟨.str "S", "Queue", .one ⟨_, _, _, rfl, List.mem_cons_self, List.mem_cons_self, List.mem_cons_self, by simp⟩
      (List.mem_cons_of_mem _ List.mem_cons_self) rfl (by simp), ⟨_, rfl⟩,
      .getAttText (q := [.str "Resources", .str "S", .str "Properties", .str "X"]) (s := "Queue.Arn")
        (.key List.mem_cons_self (.key List.mem_cons_self (.key (List.mem_cons_of_mem _ (List.mem_cons_of_mem _ List.mem_cons_self))
          (.key List.mem_cons_self (.key List.mem_cons_self .here)))))
        ⟨by decide, .inr ⟨"Arn".toList, rfl⟩⟩⟩
  cases hr

/-- two resources under opposite conditions, one of which depends on the other -/
def exOpposite : List (Key × Val) :=
  [(.str "R", .dict [(.str "Type", .str "A"), (.str "Condition", .str "C1")]),
   (.str "S", .dict [(.str "Type", .str "A"), (.str "DependsOn", .str "R"), (.str "Condition", .str "C2")])]

/-- the hypotheses of `C64_real_partial` are met -/
example : ∃ res p sc, dependsOnRule (fun _ s => s) (Conditions.init refHash 5 (.dict (exRel exOpposite))).1
      (.dict (exRel exOpposite)) = .ok res ∧ (p, .mayNotExist sc) ∈ res ∧
    ∃ σ, Respects refHash σ ∧ Permitted (exRel exOpposite) σ ∧
      Evals OneSided (conditionsOf exOne) σ (exEquals (refTo (.str "P1")) (.str "a")) false := by
  let p : Path := [.str "Resources", .str "S", .str "DependsOn"]
  let sc : Scenario := [(.str "C2", some true), (.str "C1", some false)]
  have hwf : (Val.dict (exRel exOpposite)).WF := exRel_wf (by simp [exOpposite, Val.WF, Val.WFDict])
  have hres : dependsOnRule (fun _ s => s) (Conditions.init refHash 5 (.dict (exRel exOpposite))).1
      (.dict (exRel exOpposite)) = .ok [(p, .mayNotExist sc)] := by decide
  have hcond : ∀ k c, ResourceCondition (.dict (exRel exOpposite)) (.str k) c → (k = "R" → c = "C1") ∧ (k = "S" → c = "C2") := by
    rintro k c ⟨h, _⟩
    have := (follow_at hwf).1 h
    constructor
    · rintro rfl
      have : some (Val.str "C1") = some (.str c) := this
      simpa using this.symm
    · rintro rfl
      have : some (Val.str "C2") = some (.str c) := this
      simpa using this.symm
  have hev : ∀ σ, Evals OneSided (conditionsOf exOne) σ (exEquals (refTo (.str "P1")) (.str "a"))
      (σ (refTo (.str "P1")) == "a") := fun σ => Evals.equals (.inl ⟨⟨_, _, rfl⟩, trivial⟩) .expr (.lit rfl)
  refine ⟨_, p, sc, hres, List.mem_cons_self, ?_⟩
  obtain ⟨k, s, hd, h⟩ := C64_real_partial (H := refHash) (fuel := 5) hwf (by
      intro s hs v hv
      obtain ⟨l, hl⟩ := refHash_head v
      rw [hl] at hv
      have hv' := congrArg String.toList hv
      simp [conditionsOf, exRel, exOne, dlookup, LitInDict, LitIn, LitInList, exEquals, refTo, Key.toVal] at hs
      rcases hs with (rfl | rfl) | rfl <;> simp at hv') refHash_distinct (Prod.ext rfl (by decide))
    (by intro p vals ha; obtain ⟨_, rfl⟩ := exRel_allows ha; simp [PlainLit]) hres List.mem_cons_self
  have hs := (follow_at hwf).1 (dependsOnAt_at hd)
  have : some (Val.str "R") = some (.str s) := hs
  simp at this
  subst this
  have hk : k = .str "S" := by
    rcases (dependsOnAt_path hd).1 with h | ⟨i, h⟩ <;> simp [p] at h
    exact h.symm
  subst hk
  have hR : ResourceCondition (.dict (exRel exOpposite)) (.str "R") "C1" := ⟨(follow_at hwf).2 rfl, by simp⟩
  have hS : ResourceCondition (.dict (exRel exOpposite)) (.str "S") "C2" := ⟨(follow_at hwf).2 rfl, by simp⟩
  obtain ⟨rc, hrc, _, h⟩ := h
    ⟨exOpposite, _, .key (by simp [exRel]) .here, List.mem_cons_of_mem _ List.mem_cons_self, by simp⟩
    ⟨exOpposite, _, .key (by simp [exRel]) .here, List.mem_cons_self, by simp⟩
  obtain rfl := (hcond _ _ hrc).1 rfl
  obtain ⟨σ, h1, h2, ⟨v, h3, h4⟩, _⟩ := h
    (by
      rintro c (rfl | hc)
      · exact ⟨_, rfl, fun σ => ⟨_, hev σ⟩⟩
      · obtain rfl := (hcond _ _ hc).2 rfl
        exact ⟨_, rfl, fun σ => ⟨_, .not (.named (v := exEquals (refTo (.str "P1")) (.str "a")) rfl (hev σ))⟩⟩)
    (by
      intro req _ hm
      exact ⟨.str "C1", (hm _).2 ⟨_, rfl, .inl rfl⟩, .str "C2", (hm _).2 ⟨_, rfl, .inr hS⟩, by simp, _, _, refTo (.str "P1"), rfl, rfl,
        .left ⟨_, _, rfl⟩, .inside (by simp) (by simp) (.named (name := "C1") (v := exEquals (refTo (.str "P1")) (.str "a")) rfl
          (.left ⟨_, _, rfl⟩))⟩)
  refine ⟨σ, h1, h2, ?_⟩
  have h3' : some (exEquals (refTo (.str "P1")) (.str "a")) = some v := h3
  injection h3' with h3'
  subst h3'
  exact h4

end CfnLint
