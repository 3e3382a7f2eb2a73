import Verif.Model.Scenario
import Verif.Spec.Scenario
import Verif.Lemmas.Search
import Verif.Lemmas.Dict
/- Lemmas for `get_conditions_from_path` and `is_resource_available`. -/
namespace CfnLint
open Spec

theorem at_cons {t w : Val} {k : Key} {p : Path} : At t (k :: p) w ↔ ∃ c, At t [k] c ∧ At c p w := by
  constructor
  · intro h
    cases h with
    | key hm h => exact ⟨_, .key hm .here, h⟩
    | idx hx h => exact ⟨_, .idx hx .here, h⟩
  · rintro ⟨c, h1, h2⟩
    cases h1 with
    | key hm h => cases h; exact .key hm h2
    | idx hx h => cases h; exact .idx hx h2

theorem wfDict_at : ∀ {kvs : List (Key × Val)} {kv}, Val.WFDict kvs → kv ∈ kvs → kv.2.WF
  | kv' :: rest, kv, h, hm => by
    rcases List.mem_cons.1 hm with rfl | hm
    · exact h.1
    · exact wfDict_at h.2 hm

theorem wfList_at : ∀ {xs : List Val} {x}, Val.WFList xs → x ∈ xs → x.WF
  | y :: ys, x, h, hm => by
    rcases List.mem_cons.1 hm with rfl | hm
    · exact h.1
    · exact wfList_at h.2 hm

theorem at_wf {t w : Val} {p : Path} (h : At t p w) (hw : t.WF) : w.WF := by
  induction h with
  | here => exact hw
  | key hm _ ih => exact ih (wfDict_at hw.2 hm)
  | idx hx _ ih => exact ih (wfList_at hw (List.mem_of_getElem? hx))

theorem at_subscript {t c : Val} {k : Key} (hw : t.WF) (h : At t [k] c) : t.subscript k = .ok c := by
  cases h with
  | key hm h => cases h; simp [Val.subscript, dlookup_of_mem hw.1 hm]
  | @idx xs i x _ _ hx h =>
    cases h
    simp only [Val.subscript, listIndex]
    have h1 : ¬ ((i : Int) < 0) := by omega
    rw [if_neg h1, if_neg h1]
    simp [hx]

theorem at_unique {t c c' : Val} {k : Key} (hw : t.WF) (h : At t [k] c) (h' : At t [k] c') : c = c' := by
  have := at_subscript hw h
  rw [at_subscript hw h'] at this
  injection this with this
  exact this.symm

theorem at_det {t : Val} {p : Path} : ∀ {c c' : Val}, t.WF → At t p c → At t p c' → c = c' := by
  induction p generalizing t with
  | nil => intro c c' _ h h'; cases h; cases h'; rfl
  | cons k p ih =>
    intro c c' hw h h'
    obtain ⟨u, h1, h2⟩ := at_cons.1 h
    obtain ⟨u', h1', h2'⟩ := at_cons.1 h'
    obtain rfl := at_unique hw h1 h1'
    exact ih (at_wf h1 hw) h2 h2'

/-- `v` has `b` among its values -/
def CondHas (r : PathConds) (v : Val) (b : Bool) : Prop := ∃ bs, (v, bs) ∈ r ∧ b ∈ bs

/-- distinct names, and no empty sets -/
def GoodConds (r : PathConds) : Prop := (r.map Prod.fst).Nodup ∧ ∀ kv ∈ r, kv.2 ≠ []

theorem mem_union {b : Bool} : ∀ (bs s : List Bool),
    b ∈ bs.foldl (fun s b => if b ∈ s then s else s ++ [b]) s ↔ b ∈ bs ∨ b ∈ s
  | [], s => by simp
  | x :: bs, s => by
    rw [List.foldl_cons, mem_union bs]
    split
    · rename_i hx
      simp only [List.mem_cons]
      constructor
      · rintro (h | h)
        · exact .inl (.inr h)
        · exact .inr h
      · rintro ((rfl | h) | h)
        · exact .inr hx
        · exact .inl h
        · exact .inr h
    · simp only [List.mem_append, List.mem_cons, List.not_mem_nil, or_false]
      constructor
      · rintro (h | h | rfl)
        · exact .inl (.inr h)
        · exact .inr h
        · exact .inl (.inl rfl)
      · rintro ((rfl | h) | h)
        · exact .inr (.inr rfl)
        · exact .inl h
        · exact .inr (.inl h)

theorem condHas_iff {r : PathConds} (h : (r.map Prod.fst).Nodup) {v : Val} {b : Bool} :
    CondHas r v b ↔ b ∈ (dlookup v r).getD [] := by
  constructor
  · rintro ⟨bs, hm, hb⟩
    rw [dlookup_of_mem h hm]
    exact hb
  · intro hb
    cases hl : dlookup v r with
    | none => rw [hl] at hb; cases hb
    | some bs => rw [hl] at hb; exact ⟨bs, dlookup_mem hl, hb⟩

theorem dset_mem {α β : Type} [DecidableEq α] {k : α} {v : β} {d : List (α × β)} {kv : α × β}
    (h : kv ∈ dset k v d) : kv = (k, v) ∨ kv ∈ d := by
  induction d with
  | nil => simpa [dset] using h
  | cons a d ih =>
    obtain ⟨k', v'⟩ := a
    rw [dset] at h
    split at h
    · rename_i hk
      rcases List.mem_cons.1 h with rfl | h
      · left; rw [hk]
      · right; exact List.mem_cons_of_mem _ h
    · rcases List.mem_cons.1 h with rfl | h
      · right; exact List.mem_cons_self
      · rcases ih h with h | h
        · exact .inl h
        · exact .inr (List.mem_cons_of_mem _ h)

theorem condsAdd_good {k : Val} {bs : List Bool} {r : PathConds} (hb : bs ≠ []) (h : GoodConds r) :
    GoodConds (condsAdd k bs r) := by
  refine ⟨dset_nodup _ _ h.1, ?_⟩
  intro kv hkv
  rcases dset_mem hkv with rfl | hkv
  · intro he
    obtain ⟨b, hb⟩ := List.exists_mem_of_ne_nil bs hb
    have : b ∈ ([] : List Bool) := by
      rw [← he]
      exact (mem_union bs _).2 (.inl hb)
    cases this
  · exact h.2 kv hkv

theorem condHas_add {k v : Val} {bs : List Bool} {r : PathConds} {b : Bool} (h : (r.map Prod.fst).Nodup) :
    CondHas (condsAdd k bs r) v b ↔ (v = k ∧ b ∈ bs) ∨ CondHas r v b := by
  rw [condsAdd, condHas_iff (dset_nodup _ _ h), condHas_iff h, dlookup_dset]
  by_cases hk : k = v
  · subst hk
    simp only [if_true, Option.getD_some, mem_union, true_and]
  · rw [if_neg hk]
    constructor
    · exact .inr
    · rintro (⟨rfl, _⟩ | h)
      · exact absurd rfl hk
      · exact h

theorem condsMerge_spec : ∀ (child r : PathConds), (∀ kv ∈ child, kv.2 ≠ []) → GoodConds r →
    GoodConds (condsMerge child r) ∧
    ∀ v b, CondHas (condsMerge child r) v b ↔ CondHas child v b ∨ CondHas r v b
  | [], r, _, h => ⟨h, fun v b => by simp [condsMerge, CondHas]⟩
  | (k, bs) :: child, r, hc, h => by
    have hb : bs ≠ [] := hc (k, bs) List.mem_cons_self
    have ih := condsMerge_spec child (condsAdd k bs r) (fun kv hm => hc kv (List.mem_cons_of_mem _ hm))
      (condsAdd_good hb h)
    refine ⟨ih.1, fun v b => ?_⟩
    have e : condsMerge ((k, bs) :: child) r = condsMerge child (condsAdd k bs r) := rfl
    rw [e, ih.2, condHas_add h.1]
    simp only [CondHas, List.mem_cons, Prod.mk.injEq]
    constructor
    · rintro (⟨bs', hm, hb⟩ | ⟨rfl, hb⟩ | hr)
      · exact .inl ⟨bs', .inr hm, hb⟩
      · exact .inl ⟨bs, .inl ⟨rfl, rfl⟩, hb⟩
      · exact .inr hr
    · rintro (⟨bs', ⟨rfl, rfl⟩ | hm, hb2⟩ | hr)
      · exact .inr (.inl ⟨rfl, hb2⟩)
      · exact .inl ⟨bs', hm, hb2⟩
      · exact .inr (.inr hr)

/-- required by an `Fn::If` on the path -/
def IfReq (t : Val) (p : Path) (v : Val) (b : Bool) : Prop :=
  ∃ q r x y, p = q ++ .str "Fn::If" :: .int (if b then 1 else 2) :: r ∧
    At t (q ++ [.str "Fn::If"]) (.list [v, x, y])

theorem ifReq_cons {t : Val} {k k' : Key} {p : Path} {v : Val} {b : Bool} :
    IfReq t (k :: k' :: p) v b ↔
      (k = .str "Fn::If" ∧ k' = .int (if b then 1 else 2) ∧ ∃ x y, At t [.str "Fn::If"] (.list [v, x, y])) ∨
      (∃ c, At t [k] c ∧ IfReq c (k' :: p) v b) := by
  constructor
  · rintro ⟨q, r, x, y, hp, ha⟩
    cases q with
    | nil =>
      simp only [List.nil_append, List.cons.injEq] at hp ha
      exact .inl ⟨hp.1, hp.2.1, x, y, ha⟩
    | cons k0 q =>
      simp only [List.cons_append, List.cons.injEq] at hp ha
      obtain ⟨rfl, hp⟩ := hp
      obtain ⟨c, h1, h2⟩ := at_cons.1 ha
      exact .inr ⟨c, h1, q, r, x, y, hp, h2⟩
  · rintro (⟨rfl, rfl, x, y, ha⟩ | ⟨c, h1, q, r, x, y, hp, h2⟩)
    · exact ⟨[], p, x, y, rfl, ha⟩
    · refine ⟨k :: q, r, x, y, by rw [hp]; rfl, at_cons.2 ⟨c, h1, h2⟩⟩

theorem goodConds_nil : GoodConds [] := ⟨by simp, by simp⟩

theorem condHas_single {k v : Val} {bs : List Bool} {b : Bool} :
    CondHas (condsAdd k bs []) v b ↔ v = k ∧ b ∈ bs := by
  rw [condHas_add (by simp)]
  simp [CondHas]

theorem ifConds_spec : ∀ (p : Path) (t : Val), p ≠ [] → t.WF → (∃ u, At t p.dropLast u) →
    p.getLast? ≠ some (.str "Fn::If") →
    (∀ q c a b, q ++ [.str "Fn::If"] <+: p → At t (q ++ [.str "Fn::If"]) (.list [c, a, b]) → ∃ s, c = .str s) →
    ∃ r, ifConds true false t p = .ok r ∧ GoodConds r ∧ ∀ v b, CondHas r v b ↔ IfReq t p v b
  | [], _, h, _, _, _, _ => absurd rfl h
  | [k], t, _, _, _, hl, _ => by
    refine ⟨[], ?_, goodConds_nil, ?_⟩
    · have : k ≠ .str "Fn::If" := fun h => hl (by simp [h])
      rw [ifConds, headCond, if_neg (fun h => this h.1)]
    · intro v b
      constructor
      · rintro ⟨_, hm, _⟩; cases hm
      · rintro ⟨q, r, x, y, hp, _⟩
        have := congrArg List.length hp
        simp at this
        omega
  | k :: k' :: rest, t, _, hw, ⟨u, hu⟩, hl, hn => by
    have hu' : At t (k :: (k' :: rest).dropLast) u := by simpa using hu
    obtain ⟨c, hc, hu2⟩ := at_cons.1 hu'
    have ih := ifConds_spec (k' :: rest) c (by simp) (at_wf hc hw) ⟨u, hu2⟩ (by simpa using hl)
      (fun q n a b hpre ha => hn (k :: q) n a b (by
        obtain ⟨s, hs⟩ := hpre
        exact ⟨s, by simp [← hs]⟩) (at_cons.2 ⟨c, hc, ha⟩))
    obtain ⟨r2, h2, hg2, hh2⟩ := ih
    -- the head of the path
    have hhead : ∃ r1, headCond false t k (k' :: rest) = .ok r1 ∧ GoodConds r1 ∧
        ∀ v b, CondHas r1 v b ↔
          (k = .str "Fn::If" ∧ k' = .int (if b then 1 else 2) ∧ ∃ x y, At t [.str "Fn::If"] (.list [v, x, y])) := by
      unfold headCond
      by_cases hk : k = .str "Fn::If"
      · subst hk
        rw [if_pos ⟨rfl, .inr rfl⟩]
        have hget : t.getD "Fn::If" .none = .ok c := by
          have := at_subscript hw hc
          cases hc with
          | key hm h =>
            cases h
            simp [Val.getD, dlookup_of_mem hw.1 hm]
        rw [hget]
        have huniq : ∀ v x y, At t [.str "Fn::If"] (.list [v, x, y]) → c = .list [v, x, y] :=
          fun v x y h => at_unique hw hc h
        by_cases hlist : ∃ n a b, c = .list [n, a, b]
        · obtain ⟨n, a, b, rfl⟩ := hlist
          obtain ⟨s, rfl⟩ := hn [] n a b ⟨k' :: rest, rfl⟩ hc
          have hadd : ∀ bs, addCondName (.list [.str s, a, b]) bs [] = .ok (condsAdd (.str s) bs []) := fun bs => rfl
          by_cases h1 : k' = .int 1
          · subst h1
            refine ⟨condsAdd (.str s) [true] [], by simp [hadd], condsAdd_good (by simp) goodConds_nil, ?_⟩
            intro v b'
            rw [condHas_single]
            constructor
            · rintro ⟨rfl, hb⟩
              simp only [List.mem_singleton] at hb
              subst hb
              exact ⟨rfl, rfl, a, b, hc⟩
            · rintro ⟨_, hb, x, y, h⟩
              have := huniq _ _ _ h
              simp only [Val.list.injEq, List.cons.injEq] at this
              refine ⟨this.1.symm, ?_⟩
              cases b' <;> simp at hb ⊢
          · by_cases h2 : k' = .int 2
            · subst h2
              refine ⟨condsAdd (.str s) [false] [], by simp [hadd], condsAdd_good (by simp) goodConds_nil, ?_⟩
              intro v b'
              rw [condHas_single]
              constructor
              · rintro ⟨rfl, hb⟩
                simp only [List.mem_singleton] at hb
                subst hb
                exact ⟨rfl, rfl, a, b, hc⟩
              · rintro ⟨_, hb, x, y, h⟩
                have := huniq _ _ _ h
                simp only [Val.list.injEq, List.cons.injEq] at this
                refine ⟨this.1.symm, ?_⟩
                cases b' <;> simp at hb ⊢
            · refine ⟨[], by simp [h1, h2], goodConds_nil, ?_⟩
              intro v b'
              constructor
              · rintro ⟨_, hm, _⟩; cases hm
              · rintro ⟨_, hb, _⟩
                cases b'
                · exact absurd hb h2
                · exact absurd hb h1
        · have hadd : ∀ bs, addCondName c bs [] = .ok [] := by
            intro bs
            unfold addCondName
            split
            · rename_i n a b; exact absurd ⟨n, a, b, rfl⟩ hlist
            · rfl
          refine ⟨[], ?_, goodConds_nil, ?_⟩
          · simp only [hadd]
            split
            · rfl
            · split <;> rfl
          · intro v b'
            constructor
            · rintro ⟨_, hm, _⟩; cases hm
            · rintro ⟨_, _, x, y, h⟩
              exact absurd ⟨_, _, _, huniq v x y h⟩ hlist
      · rw [if_neg (fun h => hk h.1)]
        refine ⟨[], rfl, goodConds_nil, ?_⟩
        intro v b'
        constructor
        · rintro ⟨_, hm, _⟩; cases hm
        · rintro ⟨h, _⟩; exact absurd h hk
    obtain ⟨r1, h1, hg1, hh1⟩ := hhead
    have hm := condsMerge_spec r2 r1 hg2.2 hg1
    refine ⟨condsMerge r2 r1, ?_, hm.1, ?_⟩
    · rw [ifConds, h1]
      simp only [Bool.not_true, Bool.and_false, Bool.false_eq_true, if_false, at_subscript hw hc, h2]
    · intro v b
      rw [hm.2, hh2, hh1, ifReq_cons]
      constructor
      · rintro (h | h)
        · exact .inr ⟨c, hc, h⟩
        · exact .inl h
      · rintro (h | ⟨c', hc', h⟩)
        · exact .inr h
        · rw [at_unique hw hc' hc] at h
          exact .inl h

theorem requires_iff {t : Val} {p : Path} {c : String} {b : Bool} : Requires t p c b ↔
    IfReq t p (.str c) b ∨ (b = true ∧ ∃ sec name r, p = .str sec :: name :: r ∧
      (sec = "Resources" ∨ sec = "Outputs") ∧ At t [.str sec, name, .str "Condition"] (.str c) ∧ c ≠ "") := by
  constructor
  · rintro (⟨hp, ha⟩ | ⟨hp, ha⟩ | ⟨hp, hs, ha, hc⟩)
    · exact .inl ⟨_, _, _, _, hp, ha⟩
    · exact .inl ⟨_, _, _, _, hp, ha⟩
    · exact .inr ⟨rfl, _, _, _, hp, hs, ha, hc⟩
  · rintro (⟨q, r, x, y, hp, ha⟩ | ⟨rfl, sec, name, r, hp, hs, ha, hc⟩)
    · cases b
      · exact .no hp ha
      · exact .yes hp ha
    · exact .entry hp hs ha hc

theorem entryCondition_spec {t : Val} {sec : String} {name : Key} (hw : t.WF) (h : EntryOk t sec name) :
    ∃ c, entryCondition t sec name = .ok c ∧ ((c = .none ∧ ∀ w, ¬ At t [.str sec, name, .str "Condition"] w) ∨
      (∃ s, c = .str s ∧ ∀ w, At t [.str sec, name, .str "Condition"] w ↔ w = .str s)) := by
  obtain ⟨s, kvs, h1, h2, hn⟩ := h
  have hws := at_wf h1 hw
  have hwk : (Val.dict kvs).WF := wfDict_at (kv := (name, .dict kvs)) hws.2 h2
  have hchain : ∀ w, At t [.str sec, name, .str "Condition"] w ↔ (.str "Condition", w) ∈ kvs := by
    intro w
    constructor
    · intro ha
      obtain ⟨x, hx, ha⟩ := at_cons.1 ha
      obtain ⟨y, hy, ha⟩ := at_cons.1 ha
      rw [at_unique hw hx h1] at hy
      rw [at_unique hws hy (.key h2 .here)] at ha
      cases ha with
      | key hm h => cases h; exact hm
    · intro hm
      exact at_cons.2 ⟨_, h1, .key h2 (.key hm .here)⟩
  have e : entryCondition t sec name = .ok ((dlookup (Key.str "Condition") kvs).getD .none) := by
    unfold entryCondition
    cases h1 with
    | key hm hh =>
      cases hh
      simp only [Val.getD, dlookup_of_mem hw.1 hm, Option.getD_some, Val.getK, dlookup_of_mem hws.1 h2]
  refine ⟨_, e, ?_⟩
  cases hl : dlookup (Key.str "Condition") kvs with
  | none =>
    left
    refine ⟨rfl, fun w hw => ?_⟩
    rw [hchain] at hw
    rw [dlookup_of_mem hwk.1 hw] at hl
    cases hl
  | some c =>
    right
    obtain ⟨n, rfl⟩ := hn c (dlookup_mem hl)
    refine ⟨n, rfl, fun w => ?_⟩
    rw [hchain]
    constructor
    · intro hw
      rw [dlookup_of_mem hwk.1 hw] at hl
      injection hl
    · rintro rfl; exact dlookup_mem hl

theorem pathConds_spec {t : Val} {p : Path} (hw : t.WF) (h : GoodPath t p) :
    ∃ r, pathConds t p = .ok r ∧ GoodConds r ∧ (∀ v b, CondHas r v b → ∃ c, v = .str c) ∧
      ∀ c b, CondHas r (.str c) b ↔ Requires t p c b := by
  obtain ⟨r, hr, hg, hh⟩ := ifConds_spec p t h.ne hw h.exists_ h.last h.names
  have hstr : ∀ v b, CondHas r v b → ∃ c, v = .str c := by
    intro v b hv
    obtain ⟨q, r', x, y, hp, ha⟩ := (hh v b).1 hv
    exact h.names q v x y ⟨.int (if b then 1 else 2) :: r', by simp [hp]⟩ ha
  by_cases hsec : ∃ sec name rest, p = .str sec :: name :: rest ∧ (sec = "Resources" ∨ sec = "Outputs")
  · obtain ⟨sec, name, rest, rfl, hs⟩ := hsec
    obtain ⟨c, hc, hcase⟩ := entryCondition_spec hw (h.entry sec name rest rfl hs)
    have hreq : ∀ c b, Requires t (.str sec :: name :: rest) c b ↔ CondHas r (.str c) b ∨
        (b = true ∧ At t [.str sec, name, .str "Condition"] (.str c) ∧ c ≠ "") := by
      intro c b
      rw [requires_iff, ← hh]
      constructor
      · rintro (h | ⟨rfl, sec', name', r', hp, _, ha, hne⟩)
        · exact .inl h
        · simp only [List.cons.injEq, Key.str.injEq] at hp
          obtain ⟨rfl, rfl, _⟩ := hp
          exact .inr ⟨rfl, ha, hne⟩
      · rintro (h | ⟨rfl, ha, hne⟩)
        · exact .inl h
        · exact .inr ⟨rfl, sec, name, rest, rfl, hs, ha, hne⟩
    have hpc : pathConds t (.str sec :: name :: rest) = addEntryCond c r := by
      unfold pathConds
      rw [hr]
      simp only [if_pos hs, hc]
    rcases hcase with ⟨rfl, hno⟩ | ⟨s, rfl, hyes⟩
    · refine ⟨r, by rw [hpc]; rfl, hg, hstr, fun c b => ?_⟩
      rw [hreq]
      constructor
      · exact .inl
      · rintro (h | ⟨_, ha, _⟩)
        · exact h
        · exact absurd ha (hno _)
    · by_cases hne : s = ""
      · subst hne
        refine ⟨r, by rw [hpc]; rfl, hg, hstr, fun c b => ?_⟩
        rw [hreq]
        constructor
        · exact .inl
        · rintro (h | ⟨_, ha, hne⟩)
          · exact h
          · rw [hyes] at ha
            injection ha with ha
            exact absurd ha hne
      · have hadd : addEntryCond (.str s) r = .ok (condsAdd (.str s) [true] r) := by
          unfold addEntryCond
          rw [if_pos (by simp [Val.truthy, hne])]
          rfl
        refine ⟨condsAdd (.str s) [true] r, by rw [hpc, hadd], condsAdd_good (by simp) hg, ?_, ?_⟩
        · intro v b hv
          rw [condHas_add hg.1] at hv
          rcases hv with ⟨rfl, _⟩ | hv
          · exact ⟨s, rfl⟩
          · exact hstr v b hv
        · intro c b
          rw [condHas_add hg.1, hreq, hyes]
          simp only [Val.str.injEq, List.mem_singleton]
          constructor
          · rintro (⟨rfl, rfl⟩ | h)
            · exact .inr ⟨rfl, rfl, hne⟩
            · exact .inl h
          · rintro (h | ⟨rfl, rfl, _⟩)
            · exact .inr h
            · exact .inl ⟨rfl, rfl⟩
  · refine ⟨r, ?_, hg, hstr, ?_⟩
    · unfold pathConds
      rw [hr]
      simp only
      split
      · rename_i s name rest
        rw [if_neg (fun hs => hsec ⟨s, name, rest, rfl, hs⟩)]
      · rfl
    · intro c b
      rw [hh, requires_iff]
      constructor
      · exact .inl
      · rintro (h | ⟨_, sec, name, r', hp, hs, _⟩)
        · exact h
        · exact absurd ⟨sec, name, r', hp, hs⟩ hsec

/-- counting all entries means all hold -/
theorem countHolding_all {sc : Scenario} {r : PathConds} {name : Val} (hn : name ∉ r.map Prod.fst) :
    (countHolding sc (dset name [] r) == r.length) = true ↔
      ∀ kv ∈ r, ∃ b, sc.value kv.1 = some b ∧ b ∈ kv.2 := by
  have hset : dset name ([] : List Bool) r = r ++ [(name, [])] := by
    induction r with
    | nil => rfl
    | cons a r ih =>
      obtain ⟨k', v'⟩ := a
      simp only [List.map_cons, List.mem_cons, not_or] at hn
      rw [dset, if_neg (fun h => hn.1 h.symm), ih hn.2]
      rfl
  have hlast : holdsIn sc (name, []) = false := by
    unfold holdsIn
    cases sc.value name <;> simp
  rw [hset, countHolding, List.filter_append, List.length_append, beq_iff_eq]
  have h0 : ([(name, ([] : List Bool))].filter (holdsIn sc)).length = 0 := by
    simp [hlast]
  rw [h0, Nat.add_zero, List.length_filter_eq_length_iff]
  constructor
  · intro h kv hkv
    have := h kv hkv
    unfold holdsIn at this
    cases hv : sc.value kv.1 with
    | none => simp [hv] at this
    | some b => exact ⟨b, rfl, by simpa [hv] using this⟩
  · intro h kv hkv
    obtain ⟨b, hv, hb⟩ := h kv hkv
    simp [holdsIn, hv, hb]

theorem mapM_toKey {r : List Val} (h : ∀ v ∈ r, ∃ c, v = .str c) :
    ∃ ks, r.mapM Val.toKey? = some ks ∧ r = ks.map Key.toVal ∧ ∀ k, k ∈ ks ↔ k.toVal ∈ r := by
  induction r with
  | nil => exact ⟨[], rfl, rfl, by simp⟩
  | cons v r ih =>
    obtain ⟨ks, h1, h2, h3⟩ := ih (fun v hv => h v (List.mem_cons_of_mem _ hv))
    obtain ⟨c, rfl⟩ := h v List.mem_cons_self
    refine ⟨.str c :: ks, by simp [List.mapM_cons, h1, Val.toKey?], by simp [h2, Key.toVal], ?_⟩
    intro k
    rw [List.mem_cons, List.mem_cons, h3]
    cases k <;> simp [Key.toVal]

end CfnLint
