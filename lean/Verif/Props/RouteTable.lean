import Verif.Model.RouteTable
import Verif.Spec.RouteTable
import Verif.Props.CheckValue
import Verif.Props.Cidr
import Verif.Props.Template
import Verif.Lemmas.Finds
/-
C87: one route table for each subnet.
-/
namespace CfnLint
open Spec

/-- the innermost condition of the decisions -/
def innermost (pc : Val) : List (Val × Bool) → Val
  | [] => pc
  | (c, _) :: ds => innermost c ds

theorem dotJoin_strs (x : String) : ∀ l : List String, dotJoin (.str x :: l.map .str) = .ok (withDots (x :: l))
  | [] => rfl
  | y :: l => by
    have ih := dotJoin_strs y l
    simp only [List.map_cons] at ih ⊢
    rw [dotJoin]
    · rw [ih]; simp [withDots]
    · simp

/-- the uses recorded for a value that names subnets -/
theorem mem_subnetValues {rc : Val} {v : Val} (hv : SubnetExpr v) : ∀ pc, ∃ us, subnetValues rc pc v = .ok us ∧
    ∀ u, u ∈ us ↔ ∃ ds s, Names v ds s ∧ u = ⟨rc, innermost pc ds, .str s⟩ := by
  induction hv with
  | @text s =>
    intro pc
    refine ⟨[⟨rc, pc, .str s⟩], rfl, fun u => ?_⟩
    rw [List.mem_singleton]
    constructor
    · rintro rfl; exact ⟨[], s, .text, rfl⟩
    · rintro ⟨ds, s', h, rfl⟩; cases h; rfl
  | @ref s =>
    intro pc
    refine ⟨[⟨rc, pc, .str s⟩], by simp [subnetValues], fun u => ?_⟩
    rw [List.mem_singleton]
    constructor
    · rintro rfl; exact ⟨[], s, .ref, rfl⟩
    · rintro ⟨ds, s', h, rfl⟩
      generalize hx : Val.dict [(.str "Ref", .str s)] = x at h
      cases h with
      | ref => simp at hx; subst hx; rfl
      | _ => simp at hx
  | @att x y rest =>
    intro pc
    have e : subnetAtt (.list ((x :: y :: rest).map .str)) = .ok (some (withDots (x :: y :: rest))) := by
      have := dotJoin_strs x (y :: rest)
      simp only [List.map_cons] at this ⊢
      simp only [subnetAtt, Val.isStr, if_true, this]
    refine ⟨[⟨rc, pc, .str (withDots (x :: y :: rest))⟩], by
      rcases rest with _ | ⟨z, _ | ⟨z', rest⟩⟩ <;> simp only [List.map_cons, List.map_nil] at e ⊢ <;> simp [subnetValues, e], fun u => ?_⟩
    rw [List.mem_singleton]
    constructor
    · rintro rfl; exact ⟨[], _, .att, rfl⟩
    · rintro ⟨ds, s', h, rfl⟩
      generalize hx : Val.dict [(.str "Fn::GetAtt", .list ((x :: y :: rest).map .str))] = z at h
      cases h with
      | att =>
        rename_i x' y' rest'
        have hx' : (x :: y :: rest).map Val.str = (x' :: y' :: rest').map Val.str := by simpa using hx
        have := (List.map_inj_right (fun a b h => by simpa using h)).1 hx'
        rw [this]; rfl
      | _ => simp at hx
  | @choice c a b _ _ iha ihb =>
    intro pc
    obtain ⟨l, el, hl⟩ := iha (.str c)
    obtain ⟨r, er, hr⟩ := ihb (.str c)
    refine ⟨l ++ r, by simp only [subnetValues, if_true, el, er], fun u => ?_⟩
    rw [List.mem_append, hl, hr]
    constructor
    · rintro (⟨ds, s, h, rfl⟩ | ⟨ds, s, h, rfl⟩)
      · exact ⟨_, s, .yes h, rfl⟩
      · exact ⟨_, s, .no h, rfl⟩
    · rintro ⟨ds, s, h, rfl⟩
      generalize hx : Val.dict [(.str "Fn::If", .list [.str c, a, b])] = z at h
      cases h with
      | yes h => simp at hx; obtain ⟨rfl, rfl, rfl⟩ := hx; exact .inl ⟨_, s, h, rfl⟩
      | no h => simp at hx; obtain ⟨rfl, rfl, rfl⟩ := hx; exact .inr ⟨_, s, h, rfl⟩
      | _ => simp at hx

theorem innermost_hashable {v : Val} (hv : SubnetExpr v) : ∀ pc, unhashable pc = false → ∀ ds s, Names v ds s →
    unhashable (innermost pc ds) = false := by
  induction hv with
  | text => intro pc h ds s hn; cases hn; exact h
  | ref =>
    rename_i s'
    intro pc h ds s hn
    generalize hx : Val.dict [(.str "Ref", .str s')] = x at hn
    cases hn with
    | ref => exact h
    | _ => simp at hx
  | att =>
    rename_i x y rest
    intro pc h ds s hn
    generalize hx : Val.dict [(.str "Fn::GetAtt", .list ((x :: y :: rest).map .str))] = z at hn
    cases hn with
    | att => exact h
    | _ => simp at hx
  | @choice c a b _ _ iha ihb =>
    intro pc h ds s hn
    generalize hx : Val.dict [(.str "Fn::If", .list [.str c, a, b])] = z at hn
    cases hn with
    | yes hn => simp at hx; obtain ⟨rfl, rfl, rfl⟩ := hx; exact iha (.str c) rfl _ _ hn
    | no hn => simp at hx; obtain ⟨rfl, rfl, rfl⟩ := hx; exact ihb (.str c) rfl _ _ hn
    | _ => simp at hx

/-- every association names its subnets in one of the known ways, and its condition is a text -/
def TidyAssociations (t : Val) : Prop :=
  ∀ n r, OfType ["AWS::EC2::SubnetRouteTableAssociation"] t n r → ∃ ps v, (.str "Properties", .dict ps) ∈ r ∧
    (.str "SubnetId", v) ∈ ps ∧ SubnetExpr v ∧ ∀ c, (.str "Condition", c) ∈ r → ∃ s, c = .str s

/-- what is recorded of a use: the condition of the resource, the innermost condition of the value, and the name of the subnet -/
def Recorded (t : Val) (n : Key) (u : SubnetUse) : Prop :=
  ∃ c v ds s, Associates t n c v ∧ Names v ds s ∧ u = ⟨c.getD .none, innermost .none ds, .str s⟩

theorem associates_iff {t : Val} {n : Key} {c : Option Val} {v : Val} (hw : t.WF) : Associates t n c v ↔
    ∃ r ps, OfType ["AWS::EC2::SubnetRouteTableAssociation"] t n r ∧ dlookup (Key.str "Properties") r = some (.dict ps) ∧
      dlookup (Key.str "SubnetId") ps = some v ∧ dlookup (Key.str "Condition") r = c := by
  constructor
  · rintro ⟨rs, r, ps, hr, hm, hty, hp, hs, hc⟩
    have hwr : (Val.dict r).WF := at_wf (at_append hr (.key hm .here)) hw
    have hwp : (Val.dict ps).WF := at_wf (.key hp .here) hwr
    refine ⟨r, ps, ?_, dlookup_of_mem (wf_fields hwr) hp, dlookup_of_mem (wf_fields hwp) hs, ?_⟩
    · cases t with
      | dict top =>
        rw [at_dict_one] at hr
        exact ⟨top, rs, _, rfl, dlookup_of_mem (wf_fields hw) hr, hm, dlookup_of_mem (wf_fields hwr) hty, by simp⟩
      | _ => cases hr
    · cases c with
      | some c => exact dlookup_of_mem (wf_fields hwr) hc
      | none =>
        cases hd : dlookup (Key.str "Condition") r with
        | none => rfl
        | some c => exact absurd (dlookup_mem hd) (hc c)
  · rintro ⟨r, ps, ⟨top, rs, ty, rfl, hr, hm, hty, hin⟩, hp, hs, rfl⟩
    rw [List.mem_singleton] at hin
    subst hin
    have hwr : (Val.dict r).WF := at_wf (at_append (at_dict_one.2 (dlookup_mem hr)) (.key hm .here)) hw
    refine ⟨rs, r, ps, at_dict_one.2 (dlookup_mem hr), hm, dlookup_mem hty, dlookup_mem hp, dlookup_mem hs, ?_⟩
    cases hd : dlookup (Key.str "Condition") r with
    | some c => exact dlookup_mem hd
    | none =>
      intro c hc
      rw [dlookup_of_mem (wf_fields hwr) hc] at hd
      cases hd

theorem subnetRecord_ok {t : Val} {n : Key} {r : List (Key × Val)} (hw : t.WF) (ht : TidyAssociations t)
    (h : OfType ["AWS::EC2::SubnetRouteTableAssociation"] t n r) :
    ∃ l, subnetRecord (n, r) = .ok l ∧ ∀ x, x ∈ l ↔ ∃ ps v ds s, dlookup (Key.str "Properties") r = some (.dict ps) ∧
      dlookup (Key.str "SubnetId") ps = some v ∧ Names v ds s ∧
      x = (n, ⟨(dlookup (Key.str "Condition") r).getD .none, innermost .none ds, .str s⟩) := by
  obtain ⟨ps, v, hp, hs, hv, hc⟩ := ht n r h
  have hwr : (Val.dict r).WF := by
    obtain ⟨top, rs, ty, rfl, hr, hm, -, -⟩ := h
    exact at_wf (at_append (at_dict_one.2 (dlookup_mem hr)) (.key hm .here)) hw
  have hwp : (Val.dict ps).WF := at_wf (.key hp .here) hwr
  have ep := dlookup_of_mem (wf_fields hwr) hp
  have es := dlookup_of_mem (wf_fields hwp) hs
  have hrc : unhashable ((dlookup (Key.str "Condition") r).getD .none) = false := by
    cases hd : dlookup (Key.str "Condition") r with
    | none => rfl
    | some c => obtain ⟨s, rfl⟩ := hc c (dlookup_mem hd); rfl
  obtain ⟨us, eu, hu⟩ := mem_subnetValues (rc := (dlookup (Key.str "Condition") r).getD .none) hv .none
  have hany : us.any (fun u => unhashable u.resCond || unhashable u.propCond || unhashable u.subnet) = false := by
    rw [List.any_eq_false]
    intro u hm
    obtain ⟨ds, s, hn, rfl⟩ := (hu u).1 hm
    simp only [hrc, innermost_hashable hv .none rfl ds s hn]
    simp [unhashable]
  refine ⟨us.map (fun u => (n, u)), ?_, ?_⟩
  · unfold subnetRecord
    simp only [ep, Option.getD_some]
    cases ps with
    | nil => cases hs
    | cons a l => simp only [es, Option.getD_some, eu, hany]; rfl
  · intro x
    rw [List.mem_map]
    constructor
    · rintro ⟨u, hm, rfl⟩
      obtain ⟨ds, s, hn, rfl⟩ := (hu u).1 hm
      exact ⟨ps, v, ds, s, ep, es, hn, rfl⟩
    · rintro ⟨ps', v', ds, s, ep', es', hn, rfl⟩
      rw [ep] at ep'; cases ep'
      rw [es] at es'; cases es'
      exact ⟨_, (hu _).2 ⟨ds, s, hn, rfl⟩, rfl⟩

/-- the uses that are recorded for the whole template -/
theorem mem_records {t : Val} (hw : t.WF) (ht : TidyAssociations t) :
    ∃ all, collectM subnetRecord (resourcesOfType ["AWS::EC2::SubnetRouteTableAssociation"] t) = .ok all ∧
      ∀ n u, (n, u) ∈ all ↔ Recorded t n u := by
  obtain ⟨all, e, h⟩ := collectM_spec (f := subnetRecord) (as := resourcesOfType ["AWS::EC2::SubnetRouteTableAssociation"] t)
    (P := fun kv x => ∃ ps v ds s, dlookup (Key.str "Properties") kv.2 = some (.dict ps) ∧
      dlookup (Key.str "SubnetId") ps = some v ∧ Names v ds s ∧
      x = (kv.1, ⟨(dlookup (Key.str "Condition") kv.2).getD .none, innermost .none ds, .str s⟩))
    (fun kv hkv => subnetRecord_ok hw ht ((resourcesOfType_iff (by simp) kv.1 kv.2).1 hkv))
  refine ⟨all, e, fun n u => ?_⟩
  rw [h]
  constructor
  · rintro ⟨⟨m, r⟩, hm, ps, v, ds, s, ep, es, hn, hx⟩
    obtain ⟨rfl, rfl⟩ : n = m ∧ u = _ := by simpa using hx
    exact ⟨_, v, ds, s, (associates_iff hw).2 ⟨r, ps, (resourcesOfType_iff (by simp) _ _).1 hm, ep, es, rfl⟩, hn, rfl⟩
  · rintro ⟨c, v, ds, s, ha, hn, rfl⟩
    obtain ⟨r, ps, ho, ep, es, rfl⟩ := (associates_iff hw).1 ha
    exact ⟨(n, r), (resourcesOfType_iff (by simp) _ _).2 ho, ps, v, ds, s, ep, es, hn, rfl⟩

theorem two_members {α : Type} {a b : α} {l : List α} (ha : a ∈ l) (hb : b ∈ l) (hne : a ≠ b) : 1 < l.length := by
  match l, ha, hb with
  | [x], ha, hb => simp at ha hb; exact absurd (ha.trans hb.symm) hne
  | x :: y :: l, _, _ => simp

theorem mem_otherResources {all : List (Key × SubnetUse)} {n o : Key} {u : SubnetUse} (h : (n, u) ∈ all) :
    o ∈ otherResources all n u ↔ ((o, u) ∈ all ∧ o ≠ n) ∨ (u ≠ ⟨.none, .none, u.subnet⟩ ∧ (o, ⟨.none, .none, u.subnet⟩) ∈ all) := by
  have hassoc : ∀ w x, x ∈ (all.filter (fun x => x.2 = w)).map Prod.fst ↔ (x, w) ∈ all := by
    intro w x
    simp only [List.mem_map, List.mem_filter, decide_eq_true_eq, Prod.exists]
    constructor
    · rintro ⟨a, b, ⟨hm, rfl⟩, rfl⟩; exact hm
    · intro hm; exact ⟨x, w, ⟨hm, rfl⟩, rfl⟩
  unfold otherResources
  rw [List.mem_append]
  refine or_congr ?_ ?_
  · constructor
    · intro ho
      split at ho
      · rw [List.mem_filter, hassoc] at ho
        exact ⟨ho.1, by simpa using ho.2⟩
      · cases ho
    · rintro ⟨ho, hne⟩
      rw [if_pos (two_members ((hassoc u o).2 ho) ((hassoc u n).2 h) hne), List.mem_filter, hassoc]
      exact ⟨ho, by simpa using hne⟩
  · constructor
    · intro ho
      split at ho
      · rename_i hb; exact ⟨hb, (hassoc _ _).1 ho⟩
      · cases ho
    · rintro ⟨hb, ho⟩
      rw [if_pos hb]
      exact (hassoc _ _).2 ho

/-- the rule reports the first resource, naming the second -/
def SharedReport (fs : List (Key × List Key)) (n o : Key) : Prop := ∃ os, (n, os) ∈ fs ∧ o ∈ os

theorem associates_subnet {t : Val} {n : Key} {c : Option Val} {v : Val} (hw : t.WF) (ht : TidyAssociations t)
    (h : Associates t n c v) : SubnetExpr v ∧ (c = none ∨ ∃ s, c = some (.str s)) := by
  obtain ⟨r, ps, ho, ep, es, rfl⟩ := (associates_iff hw).1 h
  obtain ⟨ps', v', hp, hs, hv, hc⟩ := ht n r ho
  have hwr : (Val.dict r).WF := by
    obtain ⟨top, rs, ty, rfl, hr, hm, -, -⟩ := ho
    exact at_wf (at_append (at_dict_one.2 (dlookup_mem hr)) (.key hm .here)) hw
  have hwp : (Val.dict ps').WF := at_wf (.key hp .here) hwr
  rw [dlookup_of_mem (wf_fields hwr) hp] at ep
  cases ep
  rw [dlookup_of_mem (wf_fields hwp) hs] at es
  cases es
  refine ⟨hv, ?_⟩
  cases hd : dlookup (Key.str "Condition") r with
  | none => exact .inl rfl
  | some c => obtain ⟨s, rfl⟩ := hc c (dlookup_mem hd); exact .inr ⟨s, rfl⟩

theorem innermost_cases {v : Val} (hv : SubnetExpr v) : ∀ ds s, Names v ds s → ds = [] ∨ ∃ c, ∀ pc, innermost pc ds = .str c := by
  induction hv with
  | text => intro ds s hn; cases hn; exact .inl rfl
  | ref =>
    rename_i s'
    intro ds s hn
    generalize hx : Val.dict [(.str "Ref", .str s')] = x at hn
    cases hn with
    | ref => exact .inl rfl
    | _ => simp at hx
  | att =>
    rename_i x y rest
    intro ds s hn
    generalize hx : Val.dict [(.str "Fn::GetAtt", .list ((x :: y :: rest).map .str))] = z at hn
    cases hn with
    | att => exact .inl rfl
    | _ => simp at hx
  | @choice c a b _ _ iha ihb =>
    intro ds s hn
    generalize hx : Val.dict [(.str "Fn::If", .list [.str c, a, b])] = z at hn
    cases hn with
    | yes hn =>
      simp at hx; obtain ⟨rfl, rfl, rfl⟩ := hx
      rcases iha _ _ hn with rfl | ⟨c', h⟩
      · exact .inr ⟨c, fun _ => rfl⟩
      · exact .inr ⟨c', fun _ => h _⟩
    | no hn =>
      simp at hx; obtain ⟨rfl, rfl, rfl⟩ := hx
      rcases ihb _ _ hn with rfl | ⟨c', h⟩
      · exact .inr ⟨c, fun _ => rfl⟩
      · exact .inr ⟨c', fun _ => h _⟩
    | _ => simp at hx

/-- a value that names a subnet without a decision takes none -/
theorem names_nil {v : Val} {s : String} (h : Names v [] s) : ∀ ds s', Names v ds s' → ds = [] ∧ s' = s := by
  generalize hd : ([] : List (Val × Bool)) = ds0 at h
  cases h with
  | text => intro ds s' h; cases h; exact ⟨rfl, rfl⟩
  | ref =>
    intro ds s' h
    generalize hx : Val.dict [(.str "Ref", .str s)] = x at h
    cases h with
    | ref => simp at hx; exact ⟨rfl, hx.symm⟩
    | _ => simp at hx
  | att =>
    rename_i x y rest
    intro ds s' h
    generalize hx : Val.dict [(.str "Fn::GetAtt", .list ((x :: y :: rest).map .str))] = z at h
    cases h with
    | att =>
      rename_i x' y' rest'
      have hx' : (x :: y :: rest).map Val.str = (x' :: y' :: rest').map Val.str := by simpa using hx
      have := (List.map_inj_right (fun a b h => by simpa using h)).1 hx'
      rw [this]; exact ⟨rfl, rfl⟩
    | _ => simp at hx
  | yes _ => cases hd
  | no _ => cases hd

theorem associates_unique {t : Val} {n : Key} {c d : Option Val} {v w : Val} (hw : t.WF) (h : Associates t n c v) (h' : Associates t n d w) :
    c = d ∧ v = w := by
  obtain ⟨r, ps, ⟨top, rs, ty, rfl, hr, hm, -, -⟩, ep, es, rfl⟩ := (associates_iff hw).1 h
  obtain ⟨r', ps', ⟨top', rs', ty', e, hr', hm', -, -⟩, ep', es', rfl⟩ := (associates_iff hw).1 h'
  cases e
  rw [hr] at hr'; cases hr'
  have hwr : (Val.dict rs).WF := at_wf (at_dict_one.2 (dlookup_mem hr)) hw
  have e := dlookup_of_mem (wf_fields hwr) hm
  rw [dlookup_of_mem (wf_fields hwr) hm'] at e
  cases e
  rw [ep] at ep'; cases ep'
  rw [es] at es'; cases es'
  exact ⟨rfl, rfl⟩

/-- the rule reports exactly a use recorded like one of another resource, or a use of the subnet that another resource names
    unconditionally -/
theorem shared_iff {t : Val} (hw : t.WF) (ht : TidyAssociations t) : ∃ fs, routeTableRule t = .ok fs ∧ (∀ f ∈ fs, f.2 ≠ []) ∧
    ∀ n o, SharedReport fs n o ↔ ∃ u, Recorded t n u ∧
      ((Recorded t o u ∧ o ≠ n) ∨ (u ≠ ⟨.none, .none, u.subnet⟩ ∧ Recorded t o ⟨.none, .none, u.subnet⟩)) := by
  obtain ⟨all, e, h⟩ := mem_records hw ht
  refine ⟨_, by unfold routeTableRule; rw [e], ?_, fun n o => ?_⟩
  · intro f hf
    rw [List.mem_flatMap] at hf
    obtain ⟨x, hx, hf⟩ := hf
    by_cases hz : otherResources all x.1 x.2 = []
    · rw [if_pos hz] at hf; cases hf
    · rw [if_neg hz, List.mem_singleton] at hf; subst hf; exact hz
  · unfold SharedReport
    constructor
    · rintro ⟨os, hm, ho⟩
      rw [List.mem_flatMap] at hm
      obtain ⟨⟨m, u⟩, hx, hm⟩ := hm
      split at hm
      · cases hm
      · rw [List.mem_singleton] at hm
        cases hm
        refine ⟨u, (h _ _).1 hx, ?_⟩
        rcases (mem_otherResources hx).1 ho with ⟨h1, h2⟩ | ⟨h1, h2⟩
        · exact .inl ⟨(h _ _).1 h1, h2⟩
        · exact .inr ⟨h1, (h _ _).1 h2⟩
    · rintro ⟨u, hn, ho⟩
      have hx := (h _ _).2 hn
      have hm : o ∈ otherResources all n u := by
        refine (mem_otherResources hx).2 ?_
        rcases ho with ⟨h1, h2⟩ | ⟨h1, h2⟩
        · exact .inl ⟨(h _ _).2 h1, h2⟩
        · exact .inr ⟨h1, (h _ _).2 h2⟩
      refine ⟨otherResources all n u, ?_, hm⟩
      rw [List.mem_flatMap]
      refine ⟨(n, u), hx, ?_⟩
      rw [if_neg (fun hz => by simp only at hz; rw [hz] at hm; cases hm)]
      exact List.mem_singleton.2 rfl

/-- **C87**: what is reported. The conditions are compared by the condition of the resource and the innermost condition of the value, and the
    branch is not looked at. -/
theorem C87_exact {t : Val} (hw : t.WF) (ht : TidyAssociations t) : ∃ fs, routeTableRule t = .ok fs ∧
    (∀ f ∈ fs, f.2 ≠ []) ∧
    ∀ n o, SharedReport fs n o ↔ n ≠ o ∧ ∃ c v ds d w es s, Associates t n c v ∧ Names v ds s ∧ Associates t o d w ∧ Names w es s ∧
      ((c = d ∧ innermost .none ds = innermost .none es) ∨ (d = none ∧ es = [])) := by
  obtain ⟨fs, e, hne, h⟩ := shared_iff hw ht
  refine ⟨fs, e, hne, fun n o => (h n o).trans ?_⟩
  constructor
  · rintro ⟨u, ⟨c, v, ds, s, ha, hn, rfl⟩, ho⟩
    rcases ho with ⟨⟨d, w, es, s', hb, hm, hu⟩, hno⟩ | ⟨hbare, d, w, es, s', hb, hm, hu⟩
    · simp only [SubnetUse.mk.injEq, Val.str.injEq] at hu
      obtain ⟨h1, h2, rfl⟩ := hu
      refine ⟨fun x => hno x.symm, c, v, ds, d, w, es, s, ha, hn, hb, hm, .inl ⟨?_, h2⟩⟩
      rcases (associates_subnet hw ht ha).2 with rfl | ⟨x, rfl⟩ <;> rcases (associates_subnet hw ht hb).2 with rfl | ⟨y, rfl⟩ <;>
        simp at h1 <;> simp [h1]
    · simp only [SubnetUse.mk.injEq, Val.str.injEq] at hu
      obtain ⟨h1, h2, rfl⟩ := hu
      have hd : d = none := by
        rcases (associates_subnet hw ht hb).2 with rfl | ⟨y, rfl⟩
        · rfl
        · simp at h1
      have hes : es = [] := by
        rcases innermost_cases (associates_subnet hw ht hb).1 es s hm with rfl | ⟨y, hy⟩
        · rfl
        · rw [hy] at h2; cases h2
      refine ⟨?_, c, v, ds, d, w, es, s, ha, hn, hb, hm, .inr ⟨hd, hes⟩⟩
      rintro rfl
      obtain ⟨rfl, rfl⟩ := associates_unique hw ha hb
      subst hd hes
      obtain ⟨rfl, -⟩ := names_nil hm ds s hn
      exact hbare rfl
  · rintro ⟨hno, c, v, ds, d, w, es, s, ha, hn, hb, hm, hx⟩
    refine ⟨_, ⟨c, v, ds, s, ha, hn, rfl⟩, ?_⟩
    rcases hx with ⟨rfl, hi⟩ | ⟨rfl, rfl⟩
    · exact .inl ⟨⟨c, w, es, s, hb, hm, by rw [hi]⟩, fun x => hno x.symm⟩
    · by_cases hbare : (⟨c.getD .none, innermost .none ds, .str s⟩ : SubnetUse) = ⟨.none, .none, .str s⟩
      · exact .inl ⟨⟨none, w, [], s, hb, hm, hbare⟩, fun x => hno x.symm⟩
      · exact .inr ⟨hbare, none, w, [], s, hb, hm, rfl⟩

/-- **C87**: a resource is reported exactly if two resources that exist together associate the same subnet -/
def C87_statement : Prop :=
  ∀ t : Val, t.WF → TidyAssociations t → ∀ fs, routeTableRule t = .ok fs → ((∃ n o, SharedReport fs n o) ↔ ∃ n o, n ≠ o ∧ Clash t n o)

/-- the subnets are named without `Fn::If` -/
def PlainSubnets (t : Val) : Prop := ∀ n c v, Associates t n c v → ∃ s, Names v [] s

/-- **C87**: without `Fn::If` in the names of subnets every report is right -/
theorem C87_sound_partial {t : Val} (hw : t.WF) (ht : TidyAssociations t) (hp : PlainSubnets t) {fs : List (Key × List Key)}
    (h : routeTableRule t = .ok fs) {n o : Key} (hr : SharedReport fs n o) : n ≠ o ∧ Clash t n o := by
  obtain ⟨fs', e, -, hx⟩ := C87_exact hw ht
  rw [h] at e; cases e
  obtain ⟨hno, c, v, ds, d, w, es, s, ha, hn, hb, hm, hc⟩ := (hx n o).1 hr
  refine ⟨hno, fun _ => true, c, d, v, w, ds, es, s, ha, hb, ?_, ?_, hn, hm, ?_, ?_⟩
  · cases c <;> simp [Made]
  · cases d <;> simp [Made]
  · obtain ⟨s', h'⟩ := hp _ _ _ ha
    obtain ⟨rfl, -⟩ := names_nil h' ds s hn
    simp
  · obtain ⟨s', h'⟩ := hp _ _ _ hb
    obtain ⟨rfl, -⟩ := names_nil h' es s hm
    simp

/-- **C87**: with one resource that names the subnet unconditionally, every other that may name it is reported, whatever its conditions -/
theorem C87_unconditional {t : Val} (hw : t.WF) (ht : TidyAssociations t) {fs : List (Key × List Key)}
    (h : routeTableRule t = .ok fs) {n o : Key} {c : Option Val} {v w : Val} {ds : List (Val × Bool)} {s : String} (hno : n ≠ o)
    (ha : Associates t n c v) (hn : Names v ds s) (hb : Associates t o none w) (hm : Names w [] s) : SharedReport fs n o := by
  obtain ⟨fs', e, -, hx⟩ := C87_exact hw ht
  rw [h] at e; cases e
  exact (hx n o).2 ⟨hno, c, v, ds, none, w, [], s, ha, hn, hb, hm, .inr ⟨rfl, rfl⟩⟩

/-- **C87**: the statement holds where the subnets are named without `Fn::If` and no two associations have different conditions -/
theorem C87_complete_partial {t : Val} (hw : t.WF) (ht : TidyAssociations t) (hp : PlainSubnets t)
    (h1 : ∀ n o c d v w, Associates t n (some c) v → Associates t o (some d) w → c = d) {fs : List (Key × List Key)}
    (h : routeTableRule t = .ok fs) : (∃ n o, SharedReport fs n o) ↔ ∃ n o, n ≠ o ∧ Clash t n o := by
  constructor
  · rintro ⟨n, o, hr⟩
    exact ⟨n, o, C87_sound_partial hw ht hp h hr⟩
  · rintro ⟨n, o, hno, σ, c, d, v, w, ds, es, s, ha, hb, -, -, hn, hm, -, -⟩
    obtain ⟨fs', e, -, hx⟩ := C87_exact hw ht
    rw [h] at e; cases e
    obtain ⟨s1, h1'⟩ := hp _ _ _ ha
    obtain ⟨rfl, -⟩ := names_nil h1' ds s hn
    obtain ⟨s2, h2'⟩ := hp _ _ _ hb
    obtain ⟨rfl, -⟩ := names_nil h2' es s hm
    cases d with
    | none => exact ⟨n, o, (hx n o).2 ⟨hno, c, v, [], none, w, [], s, ha, hn, hb, hm, .inr ⟨rfl, rfl⟩⟩⟩
    | some d =>
      cases c with
      | none => exact ⟨o, n, (hx o n).2 ⟨fun x => hno x.symm, some d, w, [], none, v, [], s, hb, hm, ha, hn, .inr ⟨rfl, rfl⟩⟩⟩
      | some c =>
        obtain rfl := h1 _ _ _ _ _ _ ha hb
        exact ⟨n, o, (hx n o).2 ⟨hno, some c, v, [], some c, w, [], s, ha, hn, hb, hm, .inl ⟨rfl, rfl⟩⟩⟩

/-- a template of two associations -/
def twoAssociations (x y : List (Key × Val)) : Val :=
  .dict [(.str "Resources", .dict [
    (.str "A", .dict ((.str "Type", .str "AWS::EC2::SubnetRouteTableAssociation") :: x)),
    (.str "B", .dict ((.str "Type", .str "AWS::EC2::SubnetRouteTableAssociation") :: y))])]

/-- the fields of an association under a condition -/
def underCondition (c s : String) : List (Key × Val) :=
  [(.str "Condition", .str c), (.str "Properties", .dict [(.str "SubnetId", .str s)])]

/-- the fields of an association of the one subnet or the other -/
def eitherSubnet (c s s' : String) : List (Key × Val) :=
  [(.str "Properties", .dict [(.str "SubnetId", .dict [(.str "Fn::If", .list [.str c, .str s, .str s'])])])]

theorem twoAssociations_mem {x y : List (Key × Val)} {n : Key} {r : List (Key × Val)}
    (h : OfType ["AWS::EC2::SubnetRouteTableAssociation"] (twoAssociations x y) n r) :
    (n = .str "A" ∧ r = (.str "Type", .str "AWS::EC2::SubnetRouteTableAssociation") :: x) ∨
    (n = .str "B" ∧ r = (.str "Type", .str "AWS::EC2::SubnetRouteTableAssociation") :: y) := by
  obtain ⟨top, rs, ty, e, hr, hm, -, -⟩ := h
  unfold twoAssociations at e
  cases e
  simp only [dlookup, if_true, Option.some.injEq, Val.dict.injEq] at hr
  subst hr
  simpa using hm

/-- **C87**: two associations of one subnet whose different conditions may hold together are not reported -/
theorem C87_conditions_missed : routeTableRule (twoAssociations (underCondition "P" "s") (underCondition "Q" "s")) = .ok [] ∧
    Clash (twoAssociations (underCondition "P" "s") (underCondition "Q" "s")) (.str "A") (.str "B") := by
  refine ⟨by decide +kernel, fun _ => true, some (.str "P"), some (.str "Q"), .str "s", .str "s", [], [], "s", ?_, ?_, rfl, rfl, .text, .text,
    by simp, by simp⟩
  · exact ⟨_, _, _, at_dict_one.2 (List.mem_singleton.2 rfl), List.mem_cons_self, List.mem_cons_self, by simp [underCondition]; rfl,
      by simp, by simp [underCondition]⟩
  · exact ⟨_, _, _, at_dict_one.2 (List.mem_singleton.2 rfl), List.mem_cons_of_mem _ (List.mem_cons_self), List.mem_cons_self,
      by simp [underCondition]; rfl, by simp, by simp [underCondition]⟩

theorem either_names {c s s' w : String} {ds : List (Val × Bool)} (h : Names (.dict [(.str "Fn::If", .list [.str c, .str s, .str s'])]) ds w) :
    (w = s ∧ ds = [(.str c, true)]) ∨ (w = s' ∧ ds = [(.str c, false)]) := by
  generalize hx : Val.dict [(.str "Fn::If", .list [.str c, .str s, .str s'])] = x at h
  cases h with
  | yes h => simp at hx; obtain ⟨rfl, rfl, rfl⟩ := hx; cases h; exact .inl ⟨rfl, rfl⟩
  | no h => simp at hx; obtain ⟨rfl, rfl, rfl⟩ := hx; cases h; exact .inr ⟨rfl, rfl⟩
  | _ => simp at hx

theorem twoAssociations_wf {x y : List (Key × Val)} (hx : (Val.dict ((.str "Type", .none) :: x)).WF)
    (hy : (Val.dict ((.str "Type", .none) :: y)).WF) : (twoAssociations x y).WF := by
  simp only [Val.WF, Val.WFDict] at hx hy
  simp [twoAssociations, Val.WF, Val.WFDict]
  simp at hx hy
  exact ⟨hx, hy⟩

/-- **C87**: two associations that choose between two subnets by the same condition, the one the other way round, are both reported, though
    they never name the same subnet at the same time -/
theorem C87_branches_reported {c s s' : String} (hs : s ≠ s') :
    (∃ fs, routeTableRule (twoAssociations (eitherSubnet c s s') (eitherSubnet c s' s)) = .ok fs ∧
      SharedReport fs (.str "A") (.str "B") ∧ SharedReport fs (.str "B") (.str "A")) ∧
    ∀ n o, n ≠ o → ¬ Clash (twoAssociations (eitherSubnet c s s') (eitherSubnet c s' s)) n o := by
  have hw : (twoAssociations (eitherSubnet c s s') (eitherSubnet c s' s)).WF :=
    twoAssociations_wf (by simp [eitherSubnet, Val.WF, Val.WFDict, Val.WFList]) (by simp [eitherSubnet, Val.WF, Val.WFDict, Val.WFList])
  have ht : TidyAssociations (twoAssociations (eitherSubnet c s s') (eitherSubnet c s' s)) := by
    intro n r h
    rcases twoAssociations_mem h with ⟨-, rfl⟩ | ⟨-, rfl⟩
    · exact ⟨_, _, List.mem_cons_of_mem _ List.mem_cons_self, List.mem_singleton.2 rfl, .choice .text .text, by simp [eitherSubnet]⟩
    · exact ⟨_, _, List.mem_cons_of_mem _ List.mem_cons_self, List.mem_singleton.2 rfl, .choice .text .text, by simp [eitherSubnet]⟩
  have hA : Associates (twoAssociations (eitherSubnet c s s') (eitherSubnet c s' s)) (.str "A") none
      (.dict [(.str "Fn::If", .list [.str c, .str s, .str s'])]) :=
    ⟨_, _, _, at_dict_one.2 (List.mem_singleton.2 rfl), List.mem_cons_self, List.mem_cons_self, List.mem_cons_of_mem _ List.mem_cons_self,
      List.mem_cons_self, by simp [eitherSubnet]⟩
  have hB : Associates (twoAssociations (eitherSubnet c s s') (eitherSubnet c s' s)) (.str "B") none
      (.dict [(.str "Fn::If", .list [.str c, .str s', .str s])]) :=
    ⟨_, _, _, at_dict_one.2 (List.mem_singleton.2 rfl), List.mem_cons_of_mem _ List.mem_cons_self, List.mem_cons_self,
      List.mem_cons_of_mem _ List.mem_cons_self, List.mem_cons_self, by simp [eitherSubnet]⟩
  have hmem : ∀ n d v, Associates (twoAssociations (eitherSubnet c s s') (eitherSubnet c s' s)) n d v → n = .str "A" ∨ n = .str "B" := by
    intro n d v h
    obtain ⟨r, ps, ho, -⟩ := (associates_iff hw).1 h
    rcases twoAssociations_mem ho with ⟨h, -⟩ | ⟨h, -⟩
    · exact .inl h
    · exact .inr h
  constructor
  · obtain ⟨fs, e, -, h⟩ := C87_exact hw ht
    refine ⟨fs, e, (h _ _).2 ⟨by decide, ?_⟩, (h _ _).2 ⟨by decide, ?_⟩⟩
    · exact ⟨_, _, _, _, _, _, s, hA, .yes .text, hB, .no .text, .inl ⟨rfl, rfl⟩⟩
    · exact ⟨_, _, _, _, _, _, s', hB, .yes .text, hA, .no .text, .inl ⟨rfl, rfl⟩⟩
  · rintro n o hno ⟨σ, x, y, v, w, ds, es, z, ha, hb, -, -, hn, hm, h1, h2⟩
    rcases hmem _ _ _ ha with rfl | rfl <;> rcases hmem _ _ _ hb with rfl | rfl
    · exact hno rfl
    · obtain ⟨-, rfl⟩ := associates_unique hw hA ha
      obtain ⟨-, rfl⟩ := associates_unique hw hB hb
      rcases either_names hn with ⟨rfl, rfl⟩ | ⟨rfl, rfl⟩ <;> rcases either_names hm with ⟨e, rfl⟩ | ⟨e, rfl⟩ <;>
        simp at h1 h2 <;> simp_all
    · obtain ⟨-, rfl⟩ := associates_unique hw hB ha
      obtain ⟨-, rfl⟩ := associates_unique hw hA hb
      rcases either_names hn with ⟨rfl, rfl⟩ | ⟨rfl, rfl⟩ <;> rcases either_names hm with ⟨e, rfl⟩ | ⟨e, rfl⟩ <;>
        simp at h1 h2 <;> simp_all
    · exact hno rfl

theorem C87_violated : ¬ C87_statement := by
  intro h
  have ht : TidyAssociations (twoAssociations (underCondition "P" "s") (underCondition "Q" "s")) := by
    intro n r h
    rcases twoAssociations_mem h with ⟨-, rfl⟩ | ⟨-, rfl⟩
    · exact ⟨_, _, by simp [underCondition]; rfl, List.mem_singleton.2 rfl, .text, by simp [underCondition]⟩
    · exact ⟨_, _, by simp [underCondition]; rfl, List.mem_singleton.2 rfl, .text, by simp [underCondition]⟩
  obtain ⟨n, o, os, hm, -⟩ := (h _ (twoAssociations_wf (by simp [underCondition, Val.WF, Val.WFDict])
    (by simp [underCondition, Val.WF, Val.WFDict])) ht _ C87_conditions_missed.1).2 ⟨_, _, by decide, C87_conditions_missed.2⟩
  cases hm

/-- two resources without `SubnetId` are reported as sharing it -/
theorem C87_absent_reported (p : String) : routeTableRule (twoAssociations [(.str "Properties", .dict [(.str "RouteTableId", .str p)])]
    [(.str "Properties", .dict [(.str "RouteTableId", .str p)])]) = .ok [(.str "A", [.str "B"]), (.str "B", [.str "A"])] := by
  rfl

/-- two associations under the same condition -/
def exShared : Val := twoAssociations (underCondition "P" "s") (underCondition "P" "s")

theorem exShared_tidy : TidyAssociations exShared := by
  intro n r h
  rcases twoAssociations_mem h with ⟨-, rfl⟩ | ⟨-, rfl⟩
  · exact ⟨_, _, by simp [underCondition]; rfl, List.mem_singleton.2 rfl, .text, by simp [underCondition]⟩
  · exact ⟨_, _, by simp [underCondition]; rfl, List.mem_singleton.2 rfl, .text, by simp [underCondition]⟩

theorem exShared_wf : exShared.WF :=
  twoAssociations_wf (by simp [underCondition, Val.WF, Val.WFDict]) (by simp [underCondition, Val.WF, Val.WFDict])

theorem exShared_assoc {n : Key} {c : Option Val} {v : Val} (h : Associates exShared n c v) : c = some (.str "P") ∧ v = .str "s" := by
  obtain ⟨r, ps, ho, ep, es, rfl⟩ := (associates_iff exShared_wf).1 h
  rcases twoAssociations_mem ho with ⟨-, rfl⟩ | ⟨-, rfl⟩ <;>
    · simp [underCondition, dlookup] at ep
      subst ep
      simp [dlookup] at es
      exact ⟨by simp [underCondition, dlookup], es.symm⟩

example : exShared.WF ∧ TidyAssociations exShared ∧ PlainSubnets exShared ∧
    (∀ n o c d v w, Associates exShared n (some c) v → Associates exShared o (some d) w → c = d) ∧
    routeTableRule exShared = .ok [(.str "A", [.str "B"]), (.str "B", [.str "A"])] := by
  refine ⟨exShared_wf, exShared_tidy, fun n c v h => ⟨"s", ?_⟩, ?_, by decide +kernel⟩
  · rw [(exShared_assoc h).2]; exact .text
  · intro n o c d v w h h'
    have := (exShared_assoc h).1.trans (exShared_assoc h').1.symm
    simpa using this

/-- the characters with full stops between them -/
def Spec.stopped : List Char → List Char
  | [] => []
  | [c] => [c]
  | c :: rest => c :: '.' :: stopped rest

theorem dotJoin_chars : ∀ cs : List Char, dotJoin (cs.map (fun c => .str (String.ofList [c]))) = .ok (String.ofList (stopped cs))
  | [] => rfl
  | [c] => rfl
  | c :: c' :: cs => by
    have ih := dotJoin_chars (c' :: cs)
    rw [List.map_cons] at ih
    rw [List.map_cons, List.map_cons, dotJoin, ih]
    · simp only [stopped, Except.ok.injEq]
      rw [← String.toList_inj]
      simp
    · intro h; cases h

/-- C87: `Fn::GetAtt` written as one text, which YAML permits before it is split, is not joined as the name and the attribute but
character by character; a text of less than two characters ends the rule with an error. -/
theorem C87_text_attribute (s : String) :
    (2 ≤ s.toList.length → subnetAtt (.str s) = .ok (some (String.ofList (stopped s.toList)))) ∧
    (s.toList.length < 2 → subnetAtt (.str s) = .error (.indexError "string index out of range")) := by
  constructor
  · intro h
    simp only [subnetAtt, h, if_true, dotJoin_chars]
  · intro h
    have : ¬ 2 ≤ s.toList.length := by omega
    simp only [subnetAtt, this, if_false]

example : subnetAtt (.str "A.B") = .ok (some "A...B") := by decide +kernel

end CfnLint
