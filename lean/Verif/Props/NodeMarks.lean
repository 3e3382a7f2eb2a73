import Verif.Lemmas.Location
import Verif.Model.NodeMarks
/-
Property C142: copies of template values and what the safe accessors return carry the marks of the nodes they come from.
-/
namespace CfnLint
open Spec

namespace Spec

/-- `w` is the node `u` as the accessors give it out: an object without the properties that are `AWS::NoValue`, with the
marks and the keys it has; anything else as it is -/
inductive GivenOut : MVal → MVal → Prop
  | object {m kvs} : GivenOut (.dict m kvs) (.dict m (kvs.filter (fun kv => decide (kv.2.erase ≠ noValue))))
  | other {v} : (∀ m kvs, v ≠ .dict m kvs) → GivenOut v v

end Spec

open MVal

theorem isNoValueRef_iff' {v : Val} : isNoValueRef v = true ↔ v = noValue := by
  unfold isNoValueRef noValue
  split
  · simp
  · rename_i h
    constructor
    · simp
    · intro e
      exact absurd e (h _ _)

theorem put_append {k : MKey} {v w : MVal} : ∀ {a b : List (MKey × MVal)}, (∀ kv ∈ a, kv.1.key ≠ k.key) →
    put k v (a ++ (k, w) :: b) = a ++ (k, v) :: b
  | [], b, _ => by rw [List.nil_append, put, if_pos rfl, List.nil_append]
  | kv :: a, b, h => by
    obtain ⟨k', v'⟩ := kv
    rw [List.cons_append, put, if_neg (h (k', v') List.mem_cons_self), put_append (fun x hx => h x (List.mem_cons_of_mem _ hx)),
      List.cons_append]

theorem put_new {k : MKey} {v : MVal} : ∀ {a : List (MKey × MVal)}, (∀ kv ∈ a, kv.1.key ≠ k.key) → put k v a = a ++ [(k, v)]
  | [], _ => rfl
  | kv :: a, h => by
    obtain ⟨k', v'⟩ := kv
    rw [put, if_neg (h (k', v') List.mem_cons_self), put_new (fun x hx => h x (List.mem_cons_of_mem _ hx)), List.cons_append]

theorem eraseDict_map : ∀ kvs : List (MKey × MVal), eraseDict kvs = kvs.map (fun kv => (kv.1.key, kv.2.erase))
  | [] => by rw [eraseDict, List.map_nil]
  | (k, v) :: rest => by rw [eraseDict, eraseDict_map rest, List.map_cons]

theorem marked_keys {m : Span} {kvs : List (MKey × MVal)} (h : MWF (.dict m kvs)) :
    (kvs.map (fun kv => kv.1.key)).Nodup ∧ Val.WFDict (eraseDict kvs) := by
  unfold MWF at h
  rw [erase, Val.WF] at h
  refine ⟨?_, h.2⟩
  have h1 := h.1
  rw [eraseDict_map, List.map_map] at h1
  exact h1

mutual
theorem deepCopy_eq : ∀ v : MVal, MWF v → v.deepCopy = v
  | .list m xs, h => by
    unfold MWF at h
    rw [erase, Val.WF] at h
    rw [deepCopy, copyList_eq xs h]
  | .dict m kvs, h => by
    obtain ⟨h1, h2⟩ := marked_keys h
    rw [deepCopy]
    exact congrArg _ (copyInto_eq kvs [] (by simpa using h1) h2)
  | .str m s, _ => by rw [deepCopy]
  | .none, _ => by rw [deepCopy]
  | .bool b, _ => by rw [deepCopy]
  | .int i, _ => by rw [deepCopy]
  | .flt r, _ => by rw [deepCopy]
theorem copyList_eq : ∀ xs : List MVal, Val.WFList (eraseList xs) → copyList xs = xs
  | [], _ => by rw [copyList]
  | x :: xs, h => by
    rw [eraseList, Val.WFList] at h
    rw [copyList, deepCopy_eq x h.1, copyList_eq xs h.2]
theorem copyInto_eq : ∀ kvs done : List (MKey × MVal), ((done ++ kvs).map (fun kv => kv.1.key)).Nodup →
    Val.WFDict (eraseDict kvs) → copyInto kvs (done ++ kvs) = done ++ kvs
  | [], done, _, _ => by rw [copyInto]
  | (k, v) :: rest, done, hn, h => by
    rw [eraseDict, Val.WFDict] at h
    have hk : ∀ kv ∈ done, kv.1.key ≠ k.key := by
      intro kv hkv e
      rw [List.map_append, List.nodup_append] at hn
      exact hn.2.2 _ (List.mem_map_of_mem hkv) _ (by rw [List.map_cons]; exact List.mem_cons_self) e
    rw [copyInto, deepCopy_eq v h.1, put_append hk, List.append_cons done (k, v) rest,
      copyInto_eq rest (done ++ [(k, v)]) (by rwa [← List.append_cons]) h.2]
end

/-- **C142** A deep copy is the value itself, with the marks of every object, list, text and key in it. -/
theorem C142_copy {v : MVal} (h : MWF v) : v.deepCopy = v := deepCopy_eq v h

theorem cleanMarked_eq : ∀ kvs acc : List (MKey × MVal), ((acc ++ kvs).map (fun kv => kv.1.key)).Nodup →
    cleanMarked kvs acc = acc ++ kvs.filter (fun kv => decide (kv.2.erase ≠ noValue))
  | [], acc, _ => by rw [cleanMarked, List.filter_nil, List.append_nil]
  | (k, v) :: rest, acc, hn => by
    rw [cleanMarked]
    by_cases hv : v.erase = noValue
    · rw [if_pos (isNoValueRef_iff'.2 hv), List.filter_cons_of_neg (by simp [hv]), cleanMarked_eq rest acc]
      refine hn.sublist (List.Sublist.map _ ?_)
      exact (List.Sublist.refl acc).append (List.sublist_cons_self _ _)
    · rw [if_neg (fun e => hv (isNoValueRef_iff'.1 e)), List.filter_cons_of_pos (by simp [hv])]
      have hk : ∀ kv ∈ acc, kv.1.key ≠ k.key := by
        intro kv hkv e
        rw [List.map_append, List.nodup_append] at hn
        exact hn.2.2 _ (List.mem_map_of_mem hkv) _ (by rw [List.map_cons]; exact List.mem_cons_self) e
      rw [put_new hk, cleanMarked_eq rest (acc ++ [(k, v)]) (by rwa [← List.append_cons]), List.append_assoc]
      rfl

/-- every result of an accessor is the node at its path, as it is given out -/
def ComesFrom (u : MVal) (path : Path) (r : MVal × Path) : Prop :=
  ∃ rel w, r.2 = path ++ rel ∧ MAt u rel w ∧ GivenOut w r.1

theorem comesFrom_object {m : Span} {kvs : List (MKey × MVal)} (h : MWF (.dict m kvs)) (path : Path) :
    ComesFrom (.dict m kvs) path (.dict m (cleanMarked kvs []), path) := by
  rw [cleanMarked_eq kvs [] (by simpa using (marked_keys h).1), List.nil_append]
  exact ⟨[], _, (List.append_nil _).symm, .here, .object⟩

theorem comesFrom_step {u c : MVal} {k : Key} {path : Path} {r : MVal × Path} (hc : Child u k c)
    (h : ComesFrom c (path ++ [k]) r) : ComesFrom u path r := by
  obtain ⟨rel, w, h1, h2, h3⟩ := h
  exact ⟨k :: rel, w, by rw [h1, List.append_assoc]; rfl, .step hc h2, h3⟩

mutual
theorem itemsMarked_from (types : List Ty) (m : Span) : ∀ (kvs : List (MKey × MVal)) (path : Path), MWF (.dict m kvs) →
    ∀ r ∈ itemsMarked types m kvs path, ComesFrom (.dict m kvs) path r
  | [(k, v)], path, h, r, hr => by
    rw [itemsMarked] at hr
    split at hr
    · exact comesFrom_step (.key List.mem_cons_self) (branchesMarked_from types v (path ++ [k.key])
        (wfDict_child (marked_keys h).2 List.mem_cons_self) r hr)
    · split at hr
      · cases hr
      · split at hr
        · rw [List.mem_singleton] at hr
          subst hr
          exact comesFrom_object h path
        · cases hr
  | [], path, h, r, hr => by
    rw [itemsMarked] at hr
    · split at hr
      · rw [List.mem_singleton] at hr
        subst hr
        exact comesFrom_object h path
      · cases hr
    · intro k v e; cases e
  | kv :: kv' :: rest, path, h, r, hr => by
    rw [itemsMarked] at hr
    · split at hr
      · rw [List.mem_singleton] at hr
        subst hr
        exact comesFrom_object h path
      · cases hr
    · intro k v e; cases e
theorem branchesMarked_from (types : List Ty) : ∀ (v : MVal) (path : Path), MWF v →
    ∀ r ∈ branchesMarked types v path, ComesFrom v path r
  | .list m [c, a, b], path, h, r, hr => by
    rw [branchesMarked, List.mem_append] at hr
    have hw : ∀ x ∈ [c, a, b], MWF x := fun x hx => wfList_child (by unfold MWF at h; rwa [erase, Val.WF] at h) hx
    rcases hr with hr | hr
    · exact comesFrom_step (.idx (i := 1) rfl) (branchMarked_from types a _ (hw a (by simp)) r hr)
    · exact comesFrom_step (.idx (i := 2) rfl) (branchMarked_from types b _ (hw b (by simp)) r hr)
  | .list m [], _, _, r, hr => by simp [branchesMarked] at hr
  | .list m [_], _, _, r, hr => by simp [branchesMarked] at hr
  | .list m [_, _], _, _, r, hr => by simp [branchesMarked] at hr
  | .list m (_ :: _ :: _ :: _ :: _), _, _, r, hr => by simp [branchesMarked] at hr
  | .dict .., _, _, r, hr => by simp [branchesMarked] at hr
  | .str .., _, _, r, hr => by simp [branchesMarked] at hr
  | .none, _, _, r, hr => by simp [branchesMarked] at hr
  | .bool _, _, _, r, hr => by simp [branchesMarked] at hr
  | .int _, _, _, r, hr => by simp [branchesMarked] at hr
  | .flt _, _, _, r, hr => by simp [branchesMarked] at hr
theorem branchMarked_from (types : List Ty) : ∀ (v : MVal) (path : Path), MWF v →
    ∀ r ∈ branchMarked types v path, ComesFrom v path r
  | .dict m kvs, path, h, r, hr => by
    rw [branchMarked, List.mem_filter] at hr
    exact itemsMarked_from [] m kvs path h r hr.1
  | .list m xs, path, h, r, hr => by
    rw [branchMarked] at hr
    · split at hr
      · rw [List.mem_singleton] at hr
        subst hr
        exact ⟨[], _, (List.append_nil _).symm, .here, .other (by simp)⟩
      · cases hr
    · intro m k e; cases e
  | .str m s, path, h, r, hr => by
    rw [branchMarked] at hr
    · split at hr
      · rw [List.mem_singleton] at hr
        subst hr
        exact ⟨[], _, (List.append_nil _).symm, .here, .other (by simp)⟩
      · cases hr
    · intro m k e; cases e
  | .none, path, h, r, hr => by
    rw [branchMarked] at hr
    · split at hr
      · rw [List.mem_singleton] at hr
        subst hr
        exact ⟨[], _, (List.append_nil _).symm, .here, .other (by simp)⟩
      · cases hr
    · intro m k e; cases e
  | .bool b, path, h, r, hr => by
    rw [branchMarked] at hr
    · split at hr
      · rw [List.mem_singleton] at hr
        subst hr
        exact ⟨[], _, (List.append_nil _).symm, .here, .other (by simp)⟩
      · cases hr
    · intro m k e; cases e
  | .int b, path, h, r, hr => by
    rw [branchMarked] at hr
    · split at hr
      · rw [List.mem_singleton] at hr
        subst hr
        exact ⟨[], _, (List.append_nil _).symm, .here, .other (by simp)⟩
      · cases hr
    · intro m k e; cases e
  | .flt b, path, h, r, hr => by
    rw [branchMarked] at hr
    · split at hr
      · rw [List.mem_singleton] at hr
        subst hr
        exact ⟨[], _, (List.append_nil _).symm, .here, .other (by simp)⟩
      · cases hr
    · intro m k e; cases e
end

/-- **C142** What `items_safe` gives out of an object is the node at the path that comes with it: the branches of `Fn::If`
where there is one, an object without its properties that are `AWS::NoValue`, with the marks and keys of the node. -/
theorem C142_items {types : List Ty} {m : Span} {kvs : List (MKey × MVal)} {path : Path} {r : MVal × Path}
    (h : MWF (.dict m kvs)) (hr : r ∈ itemsMarked types m kvs path) :
    ∃ rel u, r.2 = path ++ rel ∧ MAt (.dict m kvs) rel u ∧ GivenOut u r.1 := itemsMarked_from types m kvs path h r hr

/-- **C142** The same of the items of a list. -/
theorem C142_list {types : List Ty} {m : Span} {xs : List MVal} {path : Path} {r : MVal × Path}
    (h : MWF (.list m xs)) (hr : r ∈ listItemsMarked types xs 0 path) :
    ∃ rel u, r.2 = path ++ rel ∧ MAt (.list m xs) rel u ∧ GivenOut u r.1 := by
  have hw : ∀ x ∈ xs, MWF x := fun x hx => wfList_child (by unfold MWF at h; rwa [erase, Val.WF] at h) hx
  have go : ∀ (ys : List MVal) (n : Nat), (∀ i, ys[i]? = xs[n + i]?) → r ∈ listItemsMarked types ys n path →
      ComesFrom (.list m xs) path r := by
    intro ys
    induction ys with
    | nil => intro n _ hr; rw [listItemsMarked] at hr; cases hr
    | cons y ys ih =>
      intro n hi hr
      rw [listItemsMarked, List.mem_append] at hr
      rcases hr with hr | hr
      · have h0 := (hi 0).symm
        rw [List.getElem?_cons_zero, Nat.add_zero] at h0
        exact comesFrom_step (.idx h0) (branchMarked_from types y _ (hw y (List.mem_of_getElem? h0)) r hr)
      · refine ih (n + 1) (fun i => ?_) hr
        have := hi (i + 1)
        rw [List.getElem?_cons_succ] at this
        rw [this]
        congr 1
        omega
  exact go xs 0 (fun i => by rw [Nat.zero_add]) hr

/-- **C142** What `get_safe` gives out is the node below the key, in the same sense; where the object has no such key, it
is the default, and a default that is an object has the marks of the object itself. -/
theorem C142_get {types : List Ty} {m : Span} {kvs : List (MKey × MVal)} {key : Key} {dflt : MVal} {path : Path}
    {l : List (MVal × Path)} {r : MVal × Path} (h : MWF (.dict m kvs)) (hd : MWF dflt)
    (hl : getSafeMarked m kvs key dflt path types = .ok l) (hr : r ∈ l) :
    (∃ rel u, r.2 = path ++ key :: rel ∧ MAt (.dict m kvs) (key :: rel) u ∧ GivenOut u r.1) ∨
    ((∀ kv ∈ kvs, kv.1.key ≠ key) ∧
      ((∃ n d rel u, dflt = .dict n d ∧ r.2 = path ++ key :: rel ∧ MAt (.dict m d) rel u ∧ GivenOut u r.1) ∨
        (∀ n d, dflt ≠ .dict n d) ∧ r = (dflt, path ++ [key]))) := by
  unfold getSafeMarked at hl
  dsimp only at hl
  split at hl
  · injection hl with hl; subst hl; cases hr
  · split at hl
    · cases hl
    · injection hl with hl
      subst hl
      unfold getDefault at hr
      have hfind : ∀ {ks : List (MKey × MVal)}, find key ks = Option.none → ∀ kv ∈ ks, kv.1.key ≠ key := by
        intro ks
        induction ks with
        | nil => intro _ kv hkv; cases hkv
        | cons kv ks ih =>
          obtain ⟨k, v⟩ := kv
          intro hf x hx
          rw [find] at hf
          split at hf
          · cases hf
          · rename_i hne
            rcases List.mem_cons.1 hx with rfl | hx
            · exact hne
            · exact ih hf x hx
      have hfound : ∀ {ks : List (MKey × MVal)} {v : MVal}, find key ks = some v → ∃ mk, (mk, v) ∈ ks ∧ mk.key = key := by
        intro ks
        induction ks with
        | nil => intro v hf; rw [find] at hf; cases hf
        | cons kv ks ih =>
          obtain ⟨k, w⟩ := kv
          intro v hf
          rw [find] at hf
          split at hf
          · rename_i he
            injection hf with hf
            subst hf
            exact ⟨k, List.mem_cons_self, he⟩
          · obtain ⟨mk, h1, h2⟩ := ih hf
            exact ⟨mk, List.mem_cons_of_mem _ h1, h2⟩
      cases hf : find key kvs with
      | some v =>
        rw [hf] at hr
        obtain ⟨mk, h1, rfl⟩ := hfound hf
        obtain ⟨rel, u, e1, e2, e3⟩ := branchMarked_from types v _ (wfDict_child (marked_keys h).2 h1) r hr
        exact .inl ⟨rel, u, by rw [e1, List.append_assoc]; rfl, .step (.key h1) e2, e3⟩
      | none =>
        rw [hf] at hr
        refine .inr ⟨hfind hf, ?_⟩
        by_cases hdict : ∃ n d, dflt = .dict n d
        · obtain ⟨n, d, rfl⟩ := hdict
          dsimp only at hr
          obtain ⟨rel, u, e1, e2, e3⟩ := branchMarked_from types (.dict m d) _
            (by unfold MWF at hd ⊢; rw [erase] at hd ⊢; exact hd) r hr
          exact .inl ⟨n, d, rel, u, rfl, by rw [e1, List.append_assoc]; rfl, e2, e3⟩
        · have hnd : ∀ n d, dflt ≠ .dict n d := fun n d e => hdict ⟨n, d, e⟩
          refine .inr ⟨hnd, ?_⟩
          have : (match dflt with | .dict _ d => MVal.dict m d | d => d) = dflt := by
            cases dflt <;> first | rfl | exact absurd rfl (hnd _ _)
          cases dflt <;> first | exact absurd rfl (hnd _ _) | (
            simp only [branchMarked] at hr
            split at hr
            · exact List.mem_singleton.1 hr
            · cases hr)

/-! ### The values are those of Model/NodeOps -/

theorem put_erase (k : MKey) (v : MVal) : ∀ a : List (MKey × MVal), eraseDict (put k v a) = dset k.key v.erase (eraseDict a)
  | [] => by simp [put, eraseDict, dset]
  | (k', w) :: rest => by
    rw [put, eraseDict, dset]
    split
    · rw [eraseDict]
    · rw [eraseDict, put_erase k v rest]

theorem cleanMarked_erase : ∀ kvs acc : List (MKey × MVal), eraseDict (cleanMarked kvs acc) = cleanLoop (eraseDict kvs) (eraseDict acc)
  | [], acc => by rw [cleanMarked, eraseDict, cleanLoop]
  | (k, v) :: rest, acc => by
    rw [cleanMarked, eraseDict, cleanLoop]
    split
    · exact cleanMarked_erase rest acc
    · rw [cleanMarked_erase rest, put_erase]

/-- a result without its marks -/
def unmark (r : MVal × Path) : Val × Path := (r.1.erase, r.2)

theorem unmark_filter (types : List Ty) (l : List (MVal × Path)) :
    (l.filter (fun r => okType types r.1.erase)).map unmark = (l.map unmark).filter (fun r => okType types r.1) := by
  rw [List.filter_map]
  rfl

mutual
theorem itemsMarked_erase (types : List Ty) (m : Span) : ∀ (kvs : List (MKey × MVal)) (path : Path),
    (itemsMarked types m kvs path).map unmark = itemsSafe types (eraseDict kvs) path
  | [(k, v)], path => by
    rw [itemsMarked]
    simp only [eraseDict]
    rw [itemsSafe]
    split
    · exact branchesMarked_erase types v _
    · split
      · rfl
      · split
        · simp only [List.map_cons, List.map_nil, unmark, erase, cleanMarked_erase, clean, eraseDict]
        · rfl
  | [], path => by
    rw [itemsMarked]
    · simp only [eraseDict]
      rw [itemsSafe]
      · split <;> rename_i hc <;> simp [hc, unmark, erase, cleanMarked_erase, clean, eraseDict]
      · intro k v e; cases e
    · intro k v e; cases e
  | (k, v) :: (k', v') :: rest, path => by
    rw [itemsMarked]
    · simp only [eraseDict]
      rw [itemsSafe]
      · split <;> rename_i hc <;> simp [hc, unmark, erase, cleanMarked_erase, clean, eraseDict]
      · intro k v e; cases e
    · intro k v e; cases e
theorem branchesMarked_erase (types : List Ty) : ∀ (v : MVal) (path : Path),
    (branchesMarked types v path).map unmark = ifBranches types v.erase path
  | .list m [c, a, b], path => by
    rw [branchesMarked, List.map_append, branchMarked_erase types a, branchMarked_erase types b]
    simp only [erase, eraseList, ifBranches]
  | .list m [], _ => by simp [branchesMarked, erase, eraseList, ifBranches]
  | .list m [_], _ => by simp [branchesMarked, erase, eraseList, ifBranches]
  | .list m [_, _], _ => by simp [branchesMarked, erase, eraseList, ifBranches]
  | .list m (_ :: _ :: _ :: _ :: _), _ => by simp [branchesMarked, erase, eraseList, ifBranches]
  | .dict .., _ => by simp [branchesMarked, erase, ifBranches]
  | .str .., _ => by simp [branchesMarked, erase, ifBranches]
  | .none, _ => by simp [branchesMarked, erase, ifBranches]
  | .bool _, _ => by simp [branchesMarked, erase, ifBranches]
  | .int _, _ => by simp [branchesMarked, erase, ifBranches]
  | .flt _, _ => by simp [branchesMarked, erase, ifBranches]
theorem branchMarked_erase (types : List Ty) : ∀ (v : MVal) (path : Path),
    (branchMarked types v path).map unmark = ifBranch types v.erase path
  | .dict m kvs, path => by
    rw [branchMarked, unmark_filter, itemsMarked_erase [] m kvs path]
    simp only [erase, ifBranch]
  | .list m xs, path => by
    simp only [branchMarked, erase, ifBranch]
    split <;> rename_i hc <;> simp [hc, unmark, erase]
  | .str m s, path => by
    simp only [branchMarked, erase, ifBranch]
    split <;> rename_i hc <;> simp [hc, unmark, erase]
  | .none, path => by
    simp only [branchMarked, erase, ifBranch]
    split <;> rename_i hc <;> simp [hc, unmark, erase]
  | .bool b, path => by
    simp only [branchMarked, erase, ifBranch]
    split <;> rename_i hc <;> simp [hc, unmark, erase]
  | .int b, path => by
    simp only [branchMarked, erase, ifBranch]
    split <;> rename_i hc <;> simp [hc, unmark, erase]
  | .flt b, path => by
    simp only [branchMarked, erase, ifBranch]
    split <;> rename_i hc <;> simp [hc, unmark, erase]
end

/-- **C142** Without the marks the results are those of the accessors on plain values, so that what is proved of those
holds of these. -/
theorem C142_values (types : List Ty) (m : Span) (kvs : List (MKey × MVal)) (path : Path) :
    (itemsMarked types m kvs path).map (fun r => (r.1.erase, r.2)) = itemsSafe types (eraseDict kvs) path :=
  itemsMarked_erase types m kvs path

theorem find_erase (key : Key) : ∀ kvs : List (MKey × MVal), (find key kvs).map erase = dlookup key (eraseDict kvs)
  | [] => by rw [find, eraseDict, dlookup, Option.map_none]
  | (k, v) :: rest => by
    rw [find, eraseDict, dlookup]
    split
    · rw [Option.map_some]
    · exact find_erase key rest

/-- **C142** The same of `get_safe`, errors included. -/
theorem C142_get_values (m : Span) (kvs : List (MKey × MVal)) (key : Key) (dflt : MVal) (path : Path) (types : List Ty) :
    (match getSafeMarked m kvs key dflt path types with
      | .ok l => .ok (l.map (fun r => (r.1.erase, r.2)))
      | .error e => .error e) = getSafe (eraseDict kvs) key dflt.erase path types := by
  have hv : (getDefault m kvs key dflt).erase = (dlookup key (eraseDict kvs)).getD dflt.erase := by
    rw [← find_erase]
    unfold getDefault
    cases find key kvs with
    | some v => rfl
    | none => cases dflt <;> simp [erase]
  unfold getSafeMarked getSafe
  dsimp only
  rw [← hv]
  by_cases h1 : (getDefault m kvs key dflt).erase = .none ∧ dflt.erase = .none
  · rw [if_pos h1, if_pos h1]
    rfl
  · rw [if_neg h1, if_neg h1]
    by_cases h2 : (!types.isEmpty && decide ((getDefault m kvs key dflt).erase = dflt.erase) && !types.any dflt.erase.isInst) = true
    · rw [if_pos h2, if_pos h2]
    · rw [if_neg h2, if_neg h2]
      have := branchMarked_erase types (getDefault m kvs key dflt) (path ++ [key])
      dsimp only
      unfold unmark at this
      rw [this]
      cases (getDefault m kvs key dflt).erase <;> simp only [ifBranch]

/-! ### Examples -/

/-- an object with one property that is to be left out, and a choice between two objects -/
def exMarkedNode : List (MKey × MVal) :=
  [(⟨.str "A", some ⟨1, 0, 1, 1⟩⟩, .dict ⟨1, 2, 1, 9⟩ [(⟨.str "Ref", some ⟨1, 3, 1, 6⟩⟩, .str (some ⟨1, 6, 1, 9⟩) "AWS::NoValue")]),
   (⟨.str "B", some ⟨2, 0, 2, 1⟩⟩, .dict ⟨2, 2, 2, 9⟩ [(⟨.str "Fn::If", some ⟨2, 3, 2, 6⟩⟩,
     .list ⟨2, 6, 2, 9⟩ [.str (some ⟨3, 0, 3, 1⟩) "C", .int 1, .dict ⟨4, 0, 4, 9⟩ []])])]

theorem exMarkedNode_wf : MWF (.dict ⟨0, 0, 9, 9⟩ exMarkedNode) := by
  simp [MWF, exMarkedNode, erase, eraseDict, eraseList, Val.WF, Val.WFDict, Val.WFList]

example : (MVal.dict ⟨0, 0, 9, 9⟩ exMarkedNode).deepCopy = .dict ⟨0, 0, 9, 9⟩ exMarkedNode := C142_copy exMarkedNode_wf

/-- the second branch is given out with its own marks -/
example : ∃ l, getSafeMarked ⟨0, 0, 9, 9⟩ exMarkedNode (.str "B") .none [] [] = .ok l ∧
    (.dict ⟨4, 0, 4, 9⟩ [], [.str "B", .str "Fn::If", .int 2]) ∈ l := by
  refine ⟨_, rfl, ?_⟩
  simp [getDefault, exMarkedNode, find, branchMarked, itemsMarked, branchesMarked, cleanMarked, okType, eraseDict, erase]

/-- a default that is an object has the marks of the object -/
example : getSafeMarked ⟨0, 0, 9, 9⟩ exMarkedNode (.str "D") (.dict ⟨7, 7, 7, 7⟩ []) [] [] =
    .ok [(.dict ⟨0, 0, 9, 9⟩ [], [.str "D"])] := by
  simp [getSafeMarked, getDefault, exMarkedNode, find, branchMarked, itemsMarked, cleanMarked, okType, eraseDict, erase]

/-- the object itself, without `A` -/
example : ∃ w, (w, []) ∈ itemsMarked [] ⟨0, 0, 9, 9⟩ exMarkedNode [] ∧ GivenOut (.dict ⟨0, 0, 9, 9⟩ exMarkedNode) w := by
  refine ⟨_, ?_, .object⟩
  simp [itemsMarked, exMarkedNode, cleanMarked, okType, erase, eraseDict, eraseList, isNoValueRef, noValue, put]

end CfnLint
