import Verif.Model.DictHeap
import Verif.Props.C39
/-!
C108: several `Dictionary` objects in one program. `Dictionary(pos_dict)` takes over the caller's dict, so objects built from the same dict
know the same words for ever, but each has its own `max_length`: words added through one of them are unknown to an `LRTemplateMatcher` that uses
another if they are longer. Objects built from different dicts do not influence each other.
-/
namespace Props
open Py PT

/-- `load` is called on none of the objects in `ks` -/
def NoLoad (ks : List Nat) (steps : List Step) : Prop := ∀ k ∈ ks, ∀ f, Step.load k f ∉ steps

private theorem set_fst (objs : List (Nat × Nat)) (j d m k : Nat) (h : ∀ m', objs[j]? = some m' → m'.1 = d) :
    (((objs.set j (d, m))[k]?).map (·.1)) = (objs[k]?).map (·.1) := by
  rw [List.getElem?_set]
  by_cases e : j = k
  · subst e
    by_cases hl : j < objs.length
    · have := h _ (List.getElem?_eq_getElem hl)
      simp [hl, this]
    · simp [hl]
  · simp [e]

private theorem call_dict (w : World) (j : Nat) (f : State → State × PyM Unit) (k : Nat) :
    (((w.call j f).1.objs[k]?).map (·.1)) = (w.objs[k]?).map (·.1) := by
  unfold World.call
  split
  · rename_i d m s hd hs
    exact set_fst _ _ _ _ _ (fun m' h => by rw [hd] at h; cases h; rfl)
  · rfl

/-- an object keeps its dict object unless it is loaded from a file -/
private theorem step_dict (w : World) (x : Step) (k d : Nat) (hx : ∀ f, x ≠ .load k f) (h : (w.objs[k]?).map (·.1) = some d) :
    ((w.step x).1.objs[k]?).map (·.1) = some d := by
  cases x with
  | container o => exact h
  | dict pos => exact h
  | change r o => exact h
  | item d tag r => exact h
  | construct d' =>
    have : ∀ m, (((w.objs ++ [(d', m)])[k]?).map (·.1)) = some d := by
      intro m
      cases hk : w.objs[k]? with
      | none => rw [hk] at h; cases h
      | some v =>
        rw [hk] at h
        rw [List.getElem?_append_left (List.getElem?_eq_some_iff.1 hk).1, hk]; exact h
    show ((w.construct d').1.objs[k]?).map (·.1) = _
    unfold World.construct
    split
    · exact h
    · dsimp only
      split
      · exact h
      · exact this _
  | add j tag words force => rw [show (w.step (.add j tag words force)) = w.call j (fun s => addWords s tag words force) from rfl, call_dict]; exact h
  | remove j tag words => rw [show (w.step (.remove j tag words)) = w.call j (fun s => removeWords s tag words) from rfl, call_dict]; exact h
  | load j f =>
    have hj : j ≠ k := fun e => hx f (by rw [e])
    show (((w.objs.set j _)[k]?).map (·.1)) = _
    rw [List.getElem?_set_ne hj]; exact h

private theorem run_dict (steps : List Step) (w : World) (k d : Nat) (hx : ∀ f, Step.load k f ∉ steps) (h : (w.objs[k]?).map (·.1) = some d) :
    ((w.run steps).objs[k]?).map (·.1) = some d := by
  induction steps generalizing w with
  | nil => exact h
  | cons x steps ih =>
    refine ih _ (fun f hf => hx f (by simp [hf])) (step_dict w x k d (fun f hf => hx f (by simp [hf])) h)

/-- **C108** Two objects built from the same dict: whatever happens afterwards — calls on either, other objects, changes the caller makes to its own
    dicts and containers — they give every word the same tags, as long as neither is loaded from a file. -/
theorem C108_shared (w : World) (k k' d : Nat) (hk : (w.objs[k]?).map (·.1) = some d) (hk' : (w.objs[k']?).map (·.1) = some d) (steps : List Step)
    (hno : NoLoad [k, k'] steps) (s s' : State) (hs : (w.run steps).view k = some s) (hs' : (w.run steps).view k' = some s') :
    (∀ word, s.getPos word = s'.getPos word) ∧ ∀ word tag, s.wordIsTag word tag = s'.wordIsTag word tag := by
  have h1 := run_dict steps w k d (hno k (by simp)) hk
  have h2 := run_dict steps w k' d (hno k' (by simp)) hk'
  unfold World.view at hs hs'
  cases e1 : (w.run steps).objs[k]? with
  | none => rw [e1] at h1; cases h1
  | some v =>
    cases e2 : (w.run steps).objs[k']? with
    | none => rw [e2] at h2; cases h2
    | some v' =>
      obtain ⟨a, m⟩ := v
      obtain ⟨a', m'⟩ := v'
      rw [e1] at h1 hs
      rw [e2] at h2 hs'
      cases h1
      cases h2
      dsimp only at hs hs'
      cases hd : (w.run steps).dicts[a]? with
      | none => rw [hd] at hs; cases hs
      | some pos =>
        rw [hd] at hs hs'
        cases hs
        cases hs'
        exact ⟨fun _ => rfl, fun _ _ => rfl⟩

/-! ### objects built from different dicts -/

/-- a step in which words are added as strings and the caller does not change dicts or containers it has handed over -/
def Tame : Step → Prop
  | .change _ _ => False
  | .item _ _ _ => False
  | .add _ _ (.ref _) _ => False
  | _ => True

/-- the dict objects in use -/
private def Used (w : World) (d : Nat) : Prop := ∃ k m : Nat, w.objs[k]? = some (d, m)

private def RefOf (w : World) (d r : Nat) : Prop := ∃ pos t, w.dicts[d]? = some pos ∧ Dict.get? pos t = some r

private structure Owned (w : World) : Prop where
  valid : ∀ d, Used w d → d < w.dicts.length ∧ ∀ r, RefOf w d r → r < w.heap.length
  disjoint : ∀ d d' r, Used w d → Used w d' → d ≠ d' → RefOf w d r → ¬ RefOf w d' r

/-- from `w` to `w'` only the dict `d`, its containers and the objects that use it have changed -/
private structure Touch (d : Nat) (w w' : World) : Prop where
  dicts : ∀ d', d' ≠ d → d' < w.dicts.length → w'.dicts[d']? = w.dicts[d']?
  grow : w.dicts.length ≤ w'.dicts.length ∧ w.heap.length ≤ w'.heap.length
  heap : ∀ r, r < w.heap.length → (Used w d → ¬ RefOf w d r) → w'.heap[r]? = w.heap[r]?
  refs : Used w' d → d < w'.dicts.length ∧ ∀ r, RefOf w' d r → (Used w d ∧ RefOf w d r) ∨ (w.heap.length ≤ r ∧ r < w'.heap.length)
  used : ∀ d', d' ≠ d → Used w' d' → Used w d'
  objs : ∀ (k d' m : Nat), w.objs[k]? = some (d', m) → d' ≠ d → w'.objs[k]? = some (d', m) ∨ ∃ m', w'.objs[k]? = some (d, m')

private theorem Touch.owned {d : Nat} {w w' : World} (h : Touch d w w') (ho : Owned w) : Owned w' := by
  have old : ∀ d', d' ≠ d → Used w' d' → (d' < w.dicts.length ∧ ∀ r, RefOf w' d' r ↔ RefOf w d' r) := by
    intro d' hne hu
    have hv := ho.valid d' (h.used d' hne hu)
    refine ⟨hv.1, fun r => ?_⟩
    unfold RefOf
    rw [h.dicts d' hne hv.1]
  constructor
  · intro d' hu
    by_cases e : d' = d
    · subst e
      obtain ⟨h1, h2⟩ := h.refs hu
      refine ⟨h1, fun r hr => ?_⟩
      rcases h2 r hr with ⟨hu', hr'⟩ | hr'
      · exact Nat.lt_of_lt_of_le ((ho.valid d' hu').2 r hr') h.grow.2
      · exact hr'.2
    · obtain ⟨h1, h2⟩ := old d' e hu
      refine ⟨Nat.lt_of_lt_of_le h1 h.grow.1, fun r hr => ?_⟩
      exact Nat.lt_of_lt_of_le ((ho.valid d' (h.used d' e hu)).2 r ((h2 r).1 hr)) h.grow.2
  · have main : ∀ d' r, d' ≠ d → Used w' d → Used w' d' → RefOf w' d r → ¬ RefOf w' d' r := by
      intro d' r hne hu hu' hr hr'
      have hr2 := ((old d' hne hu').2 r).1 hr'
      have hlt := (ho.valid d' (h.used d' hne hu')).2 r hr2
      rcases (h.refs hu).2 r hr with ⟨hud, hrd⟩ | hge
      · exact ho.disjoint d d' r hud (h.used d' hne hu') (fun e => hne e.symm) hrd hr2
      · omega
    intro d1 d2 r hu1 hu2 hne hr1 hr2
    by_cases e1 : d1 = d
    · subst e1
      exact main d2 r (fun e => hne e.symm) hu1 hu2 hr1 hr2
    · by_cases e2 : d2 = d
      · subst e2
        exact main d1 r e1 hu2 hu1 hr2 hr1
      · exact ho.disjoint d1 d2 r (h.used d1 e1 hu1) (h.used d2 e2 hu2) hne (((old d1 e1 hu1).2 r).1 hr1) (((old d2 e2 hu2).2 r).1 hr2)

/-- an object on another dict notices nothing -/
private theorem Touch.frame {d : Nat} {w w' : World} (h : Touch d w w') (ho : Owned w) (k d' m : Nat) (hk : w.objs[k]? = some (d', m)) (hne : d' ≠ d)
    (hk' : w'.objs[k]? = some (d', m)) :
    ∃ s s', w.view k = some s ∧ w'.view k = some s' ∧ s'.maxLength = s.maxLength ∧ ∀ word tag, s'.wordIsTag word tag = s.wordIsTag word tag := by
  have hu : Used w d' := ⟨k, m, hk⟩
  obtain ⟨hlt, hval⟩ := ho.valid d' hu
  obtain ⟨pos, hpos⟩ : ∃ pos, w.dicts[d']? = some pos := ⟨_, List.getElem?_eq_getElem hlt⟩
  have hpos' : w'.dicts[d']? = some pos := by rw [h.dicts d' hne hlt, hpos]
  refine ⟨⟨pos, w.heap, m⟩, ⟨pos, w'.heap, m⟩, by simp [World.view, hk, hpos], by simp [World.view, hk', hpos'], rfl, fun word tag => ?_⟩
  unfold State.wordIsTag State.wordsOf
  dsimp only
  cases hr : Dict.get? pos tag with
  | none => rfl
  | some r =>
    have href : RefOf w d' r := ⟨pos, tag, hpos, hr⟩
    have := h.heap r (hval r href) (fun hud hrd => ho.disjoint d' d r hu hud hne href hrd)
    simp only [this]

/-- the state `s'` a call leaves: only containers of `s` have changed, and new tags have new containers -/
private structure Local (s s' : State) : Prop where
  grow : s.heap.length ≤ s'.heap.length
  heap : ∀ r, r < s.heap.length → (∀ t, Dict.get? s.pos t ≠ some r) → s'.heap[r]? = s.heap[r]?
  refs : ∀ t r, Dict.get? s'.pos t = some r → (∃ t', Dict.get? s.pos t' = some r) ∨ (s.heap.length ≤ r ∧ r < s'.heap.length)

private theorem Local.refl (s : State) : Local s s := ⟨Nat.le_refl _, fun _ _ _ => rfl, fun t _ h => .inl ⟨t, h⟩⟩

private theorem local_alloc (s : State) (o : Obj) (m : Nat) : Local s ⟨s.pos, s.heap ++ [o], m⟩ :=
  ⟨by simp, fun r h _ => by dsimp only; rw [List.getElem?_append_left h], fun t _ h => .inl ⟨t, h⟩⟩

private theorem local_set {s s' : State} (h : Local s s') (t : Str) (r : Nat) (hr : Dict.get? s.pos t = some r) (o : Obj) (pos : Dict Str Nat)
    (hpos : ∀ t', Dict.get? pos t' = Dict.get? s'.pos t') (m : Nat) : Local s ⟨pos, s'.heap.set r o, m⟩ := by
  refine ⟨by simpa using h.grow, fun r' h1 h2 => ?_, fun t' r' h' => ?_⟩
  · dsimp only
    rw [List.getElem?_set_ne (fun e => h2 t (by rw [hr, e]))]
    exact h.heap r' h1 h2
  · dsimp only at h' ⊢
    rw [hpos] at h'
    rw [List.length_set]
    exact h.refs t' r' h'

private theorem local_add (s : State) (tag t : Str) (force : Bool) : Local s (addWords s tag (.str t) force).1 := by
  have base := fun m => local_alloc s (Obj.set (splitWs t)) m
  unfold addWords typeCheck
  dsimp only
  split
  · exact base _
  · split
    · exact base _
    · rename_i o ho
      split
      · exact base _
      · rename_i m _
        unfold addStore
        dsimp only
        generalize (if s.maxLength < m then m else s.maxLength) = m'
        split
        · refine ⟨by simp, (base m').heap, fun t' r' h' => ?_⟩
          dsimp only at h' ⊢
          rw [Dict.get?_set] at h'
          split at h'
          · cases h'; exact .inr ⟨Nat.le_refl _, by simp⟩
          · exact .inl ⟨t', h'⟩
        · rename_i d hd
          split
          · refine local_set (base m') tag d hd _ _ (fun t' => ?_) _
            rw [Dict.get?_set]
            split
            · rename_i e; subst e; exact hd.symm
            · rfl
          · exact base _

private theorem local_remove (s : State) (tag : Str) (a : Option Arg) : Local s (removeWords s tag a).1 := by
  unfold removeWords
  split
  · exact .refl s
  · split
    · refine ⟨Nat.le_refl _, fun _ _ _ => rfl, fun t' r' h' => ?_⟩
      dsimp only at h'
      rw [Dict.get?_erase] at h'
      split at h'
      · cases h'
      · exact .inl ⟨t', h'⟩
    · rename_i a
      have hpos : (typeCheck s a).1.pos = s.pos := by cases a <;> rfl
      have base : Local s (typeCheck s a).1 := by
        cases a with
        | str t => exact local_alloc s _ _
        | ref r => exact .refl s
      unfold removeStore
      split
      · exact base
      · rename_i d hd
        split
        · exact local_set base tag d (by rw [← hpos]; exact hd) _ _ (fun _ => rfl) _
        · exact base

private theorem touch_call (w : World) (k d m : Nat) (s : State) (hk : w.objs[k]? = some (d, m)) (hs : w.view k = some s) (s' : State) (hl : Local s s') :
    Touch d w (w.put k d s') := by
  obtain ⟨pos, hpos, rfl⟩ : ∃ pos, w.dicts[d]? = some pos ∧ s = ⟨pos, w.heap, m⟩ := by
    unfold World.view at hs
    rw [hk] at hs
    dsimp only at hs
    cases hd : w.dicts[d]? with
    | none => rw [hd] at hs; cases hs
    | some pos => rw [hd] at hs; cases hs; exact ⟨pos, rfl, rfl⟩
  have hlt := (List.getElem?_eq_some_iff.1 hpos).1
  have hu : Used w d := ⟨k, m, hk⟩
  have hobjs : ∀ j : Nat, j ≠ k → (w.put k d s').objs[j]? = w.objs[j]? := fun j hj => List.getElem?_set_ne (fun e => hj e.symm)
  have hput : (w.put k d s').objs[k]? = some (d, s'.maxLength) := by
    show (w.objs.set k _)[k]? = _
    rw [List.getElem?_set_self (List.getElem?_eq_some_iff.1 hk).1]
  constructor
  · intro d' hne _
    exact List.getElem?_set_ne (fun e => hne e.symm)
  · exact ⟨by simp [World.put], hl.grow⟩
  · intro r hr hn
    refine hl.heap r hr (fun t ht => hn hu ⟨pos, t, hpos, ht⟩)
  · intro _
    refine ⟨by simp [World.put, hlt], fun r hr => ?_⟩
    obtain ⟨pos', t, h1, h2⟩ := hr
    have : pos' = s'.pos := by
      have e : (w.put k d s').dicts[d]? = some s'.pos := List.getElem?_set_self hlt
      rw [e] at h1; cases h1; rfl
    subst this
    rcases hl.refs t r h2 with ⟨t', ht'⟩ | h
    · exact .inl ⟨hu, pos, t', hpos, ht'⟩
    · exact .inr h
  · rintro d' hne ⟨j, m', hj⟩
    by_cases e : j = k
    · subst e; rw [hput] at hj; cases hj; exact absurd rfl hne
    · rw [hobjs j e] at hj; exact ⟨j, m', hj⟩
  · intro j d' m' hj hne
    by_cases e : j = k
    · subst e; rw [hk] at hj; cases hj; exact absurd rfl hne
    · exact .inl (by rw [hobjs j e]; exact hj)

private theorem touch_same (w : World) (d : Nat) (hd : ¬ Used w d) (dicts : List (Dict Str Nat)) (heap : List Obj)
    (h1 : ∀ d', d' ≠ d → d' < w.dicts.length → dicts[d']? = w.dicts[d']?) (h2 : w.dicts.length ≤ dicts.length) (h3 : w.heap.length ≤ heap.length)
    (h4 : ∀ r, r < w.heap.length → heap[r]? = w.heap[r]?) : Touch d w ⟨dicts, heap, w.objs⟩ :=
  ⟨h1, ⟨h2, h3⟩, fun r hr _ => h4 r hr, fun h => absurd h hd, fun _ _ h => h, fun _ _ _ h _ => .inl h⟩

/-- the dict object a step works on; a number that is not in use if there is none -/
def worksOn (w : World) : Step → Nat
  | .construct d => d
  | .add k _ _ _ => ((w.objs[k]?).map (·.1)).getD w.dicts.length
  | .remove k _ _ => ((w.objs[k]?).map (·.1)).getD w.dicts.length
  | _ => w.dicts.length

private theorem touch_refl (w : World) (d : Nat) (ho : Owned w) : Touch d w w :=
  ⟨fun _ _ _ => rfl, ⟨Nat.le_refl _, Nat.le_refl _⟩, fun _ _ _ => rfl, fun h => ⟨(ho.valid d h).1, fun _ hr => .inl ⟨h, hr⟩⟩, fun _ _ h => h,
    fun _ _ _ h _ => .inl h⟩

private theorem refs_fresh {α : Type} (xs : List (Str × α)) (n : Nat) (t : Str) (r : Nat)
    (h : Dict.get? (xs.zipIdx.map (fun e => (e.1.1, n + e.2))) t = some r) : n ≤ r ∧ r < n + xs.length := by
  obtain ⟨e, he, hr⟩ := List.mem_map.1 (Dict.mem_of_get? h)
  obtain ⟨⟨a, b⟩, i⟩ := e
  have := List.mem_zipIdx he
  cases hr
  dsimp only
  omega

private theorem touch_step (w : World) (ho : Owned w) (x : Step) (hx : Tame x) : Touch (worksOn w x) w (w.step x).1 := by
  have hfree : ¬ Used w w.dicts.length := fun h => Nat.lt_irrefl _ (ho.valid _ h).1
  have hcall : ∀ (k : Nat) (f : State → State × PyM Unit), (∀ s, Local s (f s).1) →
      Touch (((w.objs[k]?).map (·.1)).getD w.dicts.length) w (w.call k f).1 := by
    intro k f hf
    unfold World.call
    split
    · rename_i d m s hd hs
      rw [hd]
      exact touch_call w k d m s hd hs _ (hf s)
    · exact touch_refl w _ ho
  cases x with
  | container o =>
    exact touch_same w _ hfree _ _ (fun _ _ _ => rfl) (Nat.le_refl _) (by simp) (fun r hr => List.getElem?_append_left hr)
  | dict pos =>
    exact touch_same w _ hfree _ _ (fun d' _ h => List.getElem?_append_left h) (by simp) (Nat.le_refl _) (fun _ _ => rfl)
  | change r o => exact absurd hx id
  | item d tag r => exact absurd hx id
  | construct d =>
    show Touch d w (w.construct d).1
    unfold World.construct
    cases hpos : w.dicts[d]? with
    | none => exact touch_refl w d ho
    | some pos =>
      have hlt := (List.getElem?_eq_some_iff.1 hpos).1
      dsimp only
      have main : ∀ objs : List (Nat × Nat), (∀ d' m, (d', m) ∈ objs → d' = d) →
          Touch d w ⟨w.dicts.set d (pos.zipIdx.map (fun e => (e.1.1, w.heap.length + e.2))), w.heap ++ (pos.map (fun e => w.content e.2)).map Obj.set,
            w.objs ++ objs⟩ := by
        intro objs hobjs
        constructor
        · intro d' hne _
          exact List.getElem?_set_ne (fun e => hne e.symm)
        · exact ⟨by simp, by simp⟩
        · intro r hr _
          exact List.getElem?_append_left hr
        · intro _
          refine ⟨by simp [hlt], fun r hr => .inr ?_⟩
          obtain ⟨pos', t, h1, h2⟩ := hr
          dsimp only at h1
          rw [List.getElem?_set_self hlt] at h1
          cases h1
          have := refs_fresh _ _ _ _ h2
          simp only [List.length_append, List.length_map]
          exact this
        · rintro d' hne ⟨j, m', hj⟩
          dsimp only at hj
          rcases List.mem_append.1 (List.mem_of_getElem? hj) with h | h
          · obtain ⟨i, hi⟩ := List.getElem?_of_mem h
            exact ⟨i, m', hi⟩
          · exact absurd (hobjs _ _ h) hne
        · intro j d' m' hj _
          refine .inl ?_
          dsimp only
          rw [List.getElem?_append_left (List.getElem?_eq_some_iff.1 hj).1]
          exact hj
      split
      · have := main [] (by simp)
        rw [List.append_nil] at this
        exact this
      · rename_i m _
        exact main [(d, m)] (by simp)
  | add k tag words force =>
    cases words with
    | ref r => exact absurd hx id
    | str t => exact hcall k _ (fun s => local_add s tag t force)
  | remove k tag words => exact hcall k _ (fun s => local_remove s tag words)
  | load k f =>
    show Touch w.dicts.length w ⟨w.dicts ++ [f.posDict.zipIdx.map (fun e => (e.1.1, w.heap.length + e.2))], w.heap ++ f.posDict.map (fun e => Obj.set e.2),
      w.objs.set k (w.dicts.length, f.maxLength)⟩
    constructor
    · intro d' _ h
      exact List.getElem?_append_left h
    · exact ⟨by simp, by simp⟩
    · intro r hr _
      exact List.getElem?_append_left hr
    · intro _
      refine ⟨by simp, fun r hr => .inr ?_⟩
      obtain ⟨pos', t, h1, h2⟩ := hr
      dsimp only at h1
      rw [List.getElem?_append_right (Nat.le_refl _), Nat.sub_self] at h1
      cases h1
      have := refs_fresh _ _ _ _ h2
      simp only [List.length_append, List.length_map]
      exact this
    · rintro d' hne ⟨j, m', hj⟩
      dsimp only at hj
      rw [List.getElem?_set] at hj
      split at hj
      · split at hj
        · cases hj; exact absurd rfl hne
        · cases hj
      · exact ⟨j, m', hj⟩
    · intro j d' m' hj _
      dsimp only
      rw [List.getElem?_set]
      by_cases e : k = j
      · subst e
        rw [if_pos rfl, if_pos (List.getElem?_eq_some_iff.1 hj).1]
        exact .inr ⟨_, rfl⟩
      · rw [if_neg e]; exact .inl hj

private theorem owned_init : Owned {} := ⟨fun d ⟨k, m, h⟩ => by simp at h, fun d d' r ⟨k, m, h⟩ => by simp at h⟩

private theorem owned_run (steps : List Step) (h : ∀ x ∈ steps, Tame x) (w : World) (ho : Owned w) : Owned (w.run steps) := by
  induction steps generalizing w with
  | nil => exact ho
  | cons x steps ih => exact ih (fun y hy => h y (by simp [hy])) _ ((touch_step w ho x (h x (by simp))).owned ho)

/-- **C108** Programs that add words as strings and do not change the dicts and containers they have handed over: after any such program, a further step
    on another dict — building an object, adding, removing, loading another object — changes neither the tags of any word nor `max_length` of an
    object, whether the step raises or not. -/
theorem C108_apart (steps : List Step) (h : ∀ x ∈ steps, Tame x) (x : Step) (hx : Tame x) (k d m : Nat)
    (hk : (World.run {} steps).objs[k]? = some (d, m)) (hd : d ≠ worksOn (World.run {} steps) x) (hload : ∀ f, x ≠ .load k f) :
    ∃ s s', (World.run {} steps).view k = some s ∧ ((World.run {} steps).step x).1.view k = some s' ∧ s'.maxLength = s.maxLength ∧
      ∀ word tag, s'.wordIsTag word tag = s.wordIsTag word tag := by
  have ho := owned_run steps h {} owned_init
  have ht := touch_step _ ho x hx
  refine ht.frame ho k d m hk hd ?_
  rcases ht.objs k d m hk hd with h' | ⟨m', h'⟩
  · exact h'
  · have := step_dict _ x k d hload (by rw [hk]; rfl)
    rw [h'] at this
    exact absurd (Option.some.inj this).symm hd

/-! ### what is left of `max_length` -/

private structure Grown (s s' : State) : Prop where
  le : s.maxLength ≤ s'.maxLength
  words : ∀ t word, word ∈ s'.wordsOf t → (∃ t', word ∈ s.wordsOf t') ∨ word.length ≤ s'.maxLength

private theorem mem_words {s : State} {t word : Str} : word ∈ s.wordsOf t ↔ ∃ r o, Dict.get? s.pos t = some r ∧ s.heap[r]? = some o ∧ word ∈ o.words := by
  unfold State.wordsOf
  constructor
  · intro h
    cases hr : Dict.get? s.pos t with
    | none => rw [hr] at h; cases h
    | some r =>
      rw [hr] at h
      dsimp only at h
      cases ho : s.heap[r]? with
      | none => rw [ho] at h; cases h
      | some o => rw [ho] at h; exact ⟨r, o, rfl, ho, h⟩
  · rintro ⟨r, o, hr, ho, h⟩
    rw [hr]; dsimp only; rw [ho]; exact h

private theorem maxLen_bound {ws : List Str} {m : Nat} (h : maxLen ws = some m) : ∀ w ∈ ws, w.length ≤ m := by
  cases ws with
  | nil => cases h
  | cons x ws =>
    have key : ∀ (ws : List Str) (n : Nat), n ≤ ws.foldl (fun m x => max m x.length) n ∧ ∀ w ∈ ws, w.length ≤ ws.foldl (fun m x => max m x.length) n := by
      intro ws
      induction ws with
      | nil => intro n; simp
      | cons y ws ih =>
        intro n
        rw [List.foldl_cons]
        have := ih (max n y.length)
        refine ⟨by omega, fun w hw => ?_⟩
        rcases List.mem_cons.1 hw with rfl | hw
        · omega
        · exact this.2 w hw
    cases h
    intro w hw
    rcases List.mem_cons.1 hw with rfl | hw
    · exact (key ws _).1
    · exact (key ws _).2 w hw

private theorem grown_alloc (s : State) (hv : ∀ t r, Dict.get? s.pos t = some r → r < s.heap.length) (o : Obj) (m : Nat) (hm : s.maxLength ≤ m) :
    Grown s ⟨s.pos, s.heap ++ [o], m⟩ := by
  refine ⟨hm, fun t word h => .inl ⟨t, ?_⟩⟩
  obtain ⟨r, o', hr, ho, hw⟩ := mem_words.1 h
  dsimp only at hr ho
  rw [List.getElem?_append_left (hv t r hr)] at ho
  exact mem_words.2 ⟨r, o', hr, ho, hw⟩

private theorem grown_add (s : State) (hv : ∀ t r, Dict.get? s.pos t = some r → r < s.heap.length) (tag t : Str) (force : Bool) :
    Grown s (addWords s tag (.str t) force).1 := by
  have base := fun m hm => grown_alloc s hv (Obj.set (splitWs t)) m hm
  unfold addWords typeCheck
  dsimp only
  split
  · exact base _ (Nat.le_refl _)
  · split
    · exact base _ (Nat.le_refl _)
    · rename_i o ho
      rw [List.getElem?_append_right (Nat.le_refl _), Nat.sub_self] at ho
      cases ho
      split
      · exact base _ (Nat.le_refl _)
      · rename_i m hm
        have hbound := maxLen_bound hm
        have hle : s.maxLength ≤ (if s.maxLength < m then m else s.maxLength) ∧ m ≤ (if s.maxLength < m then m else s.maxLength) := by split <;> omega
        unfold addStore
        dsimp only
        generalize (if s.maxLength < m then m else s.maxLength) = m' at hle
        split
        · refine ⟨hle.1, fun t' word h => ?_⟩
          obtain ⟨r, o', hr, ho', hw⟩ := mem_words.1 h
          dsimp only at hr ho' ⊢
          rw [Dict.get?_set] at hr
          split at hr
          · cases hr
            rw [List.getElem?_append_right (Nat.le_refl _), Nat.sub_self] at ho'
            cases ho'
            exact .inr (Nat.le_trans (hbound word hw) hle.2)
          · rw [List.getElem?_append_left (hv t' r hr)] at ho'
            exact .inl ⟨t', mem_words.2 ⟨r, o', hr, ho', hw⟩⟩
        · rename_i d hd
          split
          · rename_i l hl
            rw [List.getElem?_append_left (hv tag d hd)] at hl
            refine ⟨hle.1, fun t' word h => ?_⟩
            obtain ⟨r, o', hr, ho', hw⟩ := mem_words.1 h
            dsimp only at hr ho' ⊢
            have hr' : Dict.get? s.pos t' = some r := by
              rw [Dict.get?_set] at hr
              split at hr
              · rename_i e; subst e; cases hr; exact hd
              · exact hr
            rw [List.getElem?_set] at ho'
            split at ho'
            · rename_i e
              subst e
              split at ho'
              · cases ho'
                rcases List.mem_append.1 hw with hw | hw
                · exact .inl ⟨tag, mem_words.2 ⟨d, _, hd, hl, hw⟩⟩
                · exact .inr (Nat.le_trans (hbound word hw) hle.2)
              · cases ho'
            · rw [List.getElem?_append_left (hv t' r hr')] at ho'
              exact .inl ⟨t', mem_words.2 ⟨r, o', hr', ho', hw⟩⟩
          · exact base _ hle.1

private theorem grown_remove (s : State) (hv : ∀ t r, Dict.get? s.pos t = some r → r < s.heap.length) (tag : Str) (a : Option Arg) :
    Grown s (removeWords s tag a).1 := by
  have refl : Grown s s := ⟨Nat.le_refl _, fun t word h => .inl ⟨t, h⟩⟩
  unfold removeWords
  split
  · exact refl
  · split
    · refine ⟨Nat.le_refl _, fun t word h => .inl ⟨t, ?_⟩⟩
      obtain ⟨r, o', hr, ho', hw⟩ := mem_words.1 h
      dsimp only at hr ho'
      rw [Dict.get?_erase] at hr
      split at hr
      · cases hr
      · exact mem_words.2 ⟨r, o', hr, ho', hw⟩
    · rename_i a
      have base : Grown s (typeCheck s a).1 := by
        cases a with
        | str t => exact grown_alloc s hv _ _ (Nat.le_refl _)
        | ref r => exact refl
      unfold removeStore
      split
      · exact base
      · rename_i d hd
        split
        · rename_i l ws hl _
          refine ⟨base.le, fun t word h => ?_⟩
          refine base.words t word ?_
          obtain ⟨r, o', hr, ho', hw⟩ := mem_words.1 h
          dsimp only at hr ho'
          rw [List.getElem?_set] at ho'
          split at ho'
          · rename_i e
            subst e
            split at ho'
            · cases ho'
              exact mem_words.2 ⟨d, _, hr, hl, (List.mem_filter.1 hw).1⟩
            · cases ho'
          · exact mem_words.2 ⟨r, o', hr, ho', hw⟩
        · exact base

/-- a word of the dict `d` -/
private def WordIn (w : World) (d : Nat) (word : Str) : Prop :=
  ∃ pos t r o, w.dicts[d]? = some pos ∧ Dict.get? pos t = some r ∧ w.heap[r]? = some o ∧ word ∈ o.words

private def Bounded (w : World) : Prop := ∀ d word, Used w d → WordIn w d word → ∃ k m : Nat, w.objs[k]? = some (d, m) ∧ word.length ≤ m

private theorem wordIn_frame {d : Nat} {w w' : World} (h : Touch d w w') (ho : Owned w) (d' : Nat) (hne : d' ≠ d) (hu : Used w d') (word : Str)
    (hw : WordIn w' d' word) : WordIn w d' word := by
  obtain ⟨pos, t, r, o, h1, h2, h3, h4⟩ := hw
  obtain ⟨hlt, hval⟩ := ho.valid d' hu
  rw [h.dicts d' hne hlt] at h1
  have href : RefOf w d' r := ⟨pos, t, h1, h2⟩
  rw [h.heap r (hval r href) (fun hud hrd => ho.disjoint d' d r hu hud hne href hrd)] at h3
  exact ⟨pos, t, r, o, h1, h2, h3, h4⟩

private theorem bounded_call (w : World) (ho : Owned w) (hb : Bounded w) (k : Nat) (f : State → State × PyM Unit) (hf : ∀ s, Local s (f s).1)
    (hg : ∀ s : State, (∀ t r, Dict.get? s.pos t = some r → r < s.heap.length) → Grown s (f s).1) : Bounded (w.call k f).1 := by
  unfold World.call
  split
  · rename_i d m s hd hs
    have ht := touch_call w k d m s hd hs _ (hf s)
    have hu : Used w d := ⟨k, m, hd⟩
    have hlen := (List.getElem?_eq_some_iff.1 hd).1
    obtain ⟨pos, hpos, rfl⟩ : ∃ pos, w.dicts[d]? = some pos ∧ s = ⟨pos, w.heap, m⟩ := by
      unfold World.view at hs
      rw [hd] at hs
      dsimp only at hs
      cases hd' : w.dicts[d]? with
      | none => rw [hd'] at hs; cases hs
      | some pos => rw [hd'] at hs; cases hs; exact ⟨pos, rfl, rfl⟩
    have hgr := hg ⟨pos, w.heap, m⟩ (fun t r hr => (ho.valid d hu).2 r ⟨pos, t, hpos, hr⟩)
    obtain ⟨s', hs'⟩ : ∃ s', s' = (f ⟨pos, w.heap, m⟩).1 := ⟨_, rfl⟩
    rw [← hs'] at hgr ht ⊢
    have hself : (w.put k d s').objs[k]? = some (d, s'.maxLength) := List.getElem?_set_self hlen
    have hoth : ∀ j : Nat, j ≠ k → (w.put k d s').objs[j]? = w.objs[j]? := fun j hj => List.getElem?_set_ne (fun e => hj e.symm)
    intro d' word hu' hw
    by_cases e : d' = d
    · subst e
      obtain ⟨pos', t, r, o, h1, h2, h3, h4⟩ := hw
      have e1 : (w.put k d' s').dicts[d']? = some s'.pos := List.getElem?_set_self (List.getElem?_eq_some_iff.1 hpos).1
      rw [e1] at h1
      cases h1
      rcases hgr.words t word (mem_words.2 ⟨r, o, h2, h3, h4⟩) with ⟨t', h⟩ | h
      · obtain ⟨r', o', q1, q2, q3⟩ := mem_words.1 h
        obtain ⟨j, m', hj, hle⟩ := hb d' word hu ⟨pos, t', r', o', hpos, q1, q2, q3⟩
        by_cases ej : j = k
        · subst ej
          rw [hd] at hj
          cases hj
          exact ⟨j, _, hself, Nat.le_trans hle hgr.le⟩
        · exact ⟨j, m', by rw [hoth j ej]; exact hj, hle⟩
      · exact ⟨k, _, hself, h⟩
    · have hu0 := ht.used d' e hu'
      obtain ⟨j, m', hj, hle⟩ := hb d' word hu0 (wordIn_frame ht ho d' e hu0 word hw)
      have ej : j ≠ k := by
        rintro rfl
        rw [hd] at hj; cases hj; exact e rfl
      exact ⟨j, m', by rw [hoth j ej]; exact hj, hle⟩
  · exact hb

private theorem bounded_step (w : World) (ho : Owned w) (hb : Bounded w) (x : Step) (hx : Tame x) (hl : ∀ k f, x ≠ .load k f) : Bounded (w.step x).1 := by
  have ht := touch_step w ho x hx
  cases x with
  | container o =>
    intro d word hu hw
    have hu' : Used w d := hu
    exact hb d word hu' (wordIn_frame ht ho d (fun e => by have := (ho.valid d hu').1; subst e; exact Nat.lt_irrefl _ this) hu' word hw)
  | dict pos =>
    intro d word hu hw
    have hu' : Used w d := hu
    exact hb d word hu' (wordIn_frame ht ho d (fun e => by have := (ho.valid d hu').1; subst e; exact Nat.lt_irrefl _ this) hu' word hw)
  | change r o => exact absurd hx id
  | item d tag r => exact absurd hx id
  | construct d =>
    change Touch d w (w.construct d).1 at ht
    show Bounded (w.construct d).1
    cases hpos : w.dicts[d]? with
    | none =>
      unfold World.construct; rw [hpos]; exact hb
    | some pos =>
      have hlt := (List.getElem?_eq_some_iff.1 hpos).1
      obtain ⟨vals, hvals⟩ : ∃ vals, vals = pos.map (fun e => w.content e.2) := ⟨_, rfl⟩
      obtain ⟨w', hw'⟩ : ∃ w', w' = (w.construct d).1 := ⟨_, rfl⟩
      have hdicts : w'.dicts = w.dicts.set d (pos.zipIdx.map (fun e => (e.1.1, w.heap.length + e.2))) ∧ w'.heap = w.heap ++ vals.map Obj.set := by
        rw [hw', hvals]; unfold World.construct; rw [hpos]; dsimp only
        split <;> exact ⟨rfl, rfl⟩
      have hobjs : (maxLen vals.flatten = none ∧ w'.objs = w.objs) ∨ ∃ m, maxLen vals.flatten = some m ∧ w'.objs = w.objs ++ [(d, m)] := by
        rw [hw', hvals]; unfold World.construct; rw [hpos]; dsimp only
        cases hm : maxLen (pos.map (fun e => w.content e.2)).flatten with
        | none => exact .inl ⟨rfl, rfl⟩
        | some m => exact .inr ⟨m, rfl, rfl⟩
      rw [← hw'] at ht ⊢
      intro d' word hu hw
      by_cases e : d' = d
      · subst e
        obtain ⟨pos', t, r, o, h1, h2, h3, h4⟩ := hw
        rw [hdicts.1, List.getElem?_set_self hlt] at h1
        cases h1
        have hf := refs_fresh _ _ _ _ h2
        rw [hdicts.2, List.getElem?_append_right hf.1] at h3
        have hin : word ∈ vals.flatten := by
          obtain ⟨v, hv, rfl⟩ := List.mem_map.1 (List.mem_of_getElem? h3)
          exact List.mem_flatten.2 ⟨v, hv, h4⟩
        rcases hobjs with ⟨hn, _⟩ | ⟨m, hm, hobj⟩
        · cases hz : vals.flatten with
          | nil => rw [hz] at hin; cases hin
          | cons a b => rw [hz] at hn; cases hn
        · refine ⟨w.objs.length, m, ?_, maxLen_bound hm word hin⟩
          rw [hobj, List.getElem?_append_right (Nat.le_refl _), Nat.sub_self]; rfl
      · have hu0 := ht.used d' e hu
        obtain ⟨j, m', hj, hle⟩ := hb d' word hu0 (wordIn_frame ht ho d' e hu0 word hw)
        refine ⟨j, m', ?_, hle⟩
        rcases hobjs with ⟨_, hobj⟩ | ⟨m, _, hobj⟩
        · rw [hobj]; exact hj
        · rw [hobj, List.getElem?_append_left (List.getElem?_eq_some_iff.1 hj).1]; exact hj
  | add k tag words force =>
    cases words with
    | ref r => exact absurd hx id
    | str t => exact bounded_call w ho hb k _ (fun s => local_add s tag t force) (fun s hv => grown_add s hv tag t force)
  | remove k tag words => exact bounded_call w ho hb k _ (fun s => local_remove s tag words) (fun s hv => grown_remove s hv tag words)
  | load k f => exact absurd rfl (hl k f)

/-- **C108** What is left of "no word is longer than `max_length`" when objects share a dict: after any such program without `load`, every word an object
    knows is at most as long as the `max_length` of some object on the same dict (for an object alone on its dict: its own). -/
theorem C108_max_length (steps : List Step) (h : ∀ x ∈ steps, Tame x ∧ ∀ k f, x ≠ .load k f) (k d m : Nat) (s : State)
    (hk : (World.run {} steps).objs[k]? = some (d, m)) (hs : (World.run {} steps).view k = some s) (word tag : Str) (hw : s.wordIsTag word tag = true) :
    ∃ k' m' : Nat, (World.run {} steps).objs[k']? = some (d, m') ∧ word.length ≤ m' := by
  have key : ∀ (steps : List Step) (w : World), (∀ x ∈ steps, Tame x ∧ ∀ k f, x ≠ .load k f) → Owned w → Bounded w → Bounded (w.run steps) := by
    intro steps
    induction steps with
    | nil => intro w _ _ hb; exact hb
    | cons x steps ih =>
      intro w h ho hb
      have hx := h x (by simp)
      exact ih _ (fun y hy => h y (by simp [hy])) ((touch_step w ho x hx.1).owned ho) (bounded_step w ho hb x hx.1 hx.2)
  have hb := key steps {} h owned_init (fun d word ⟨k, m, h⟩ => by simp at h)
  refine hb d word ⟨k, m, hk⟩ ?_
  have hin := of_decide_eq_true hw
  unfold World.view at hs
  rw [hk] at hs
  dsimp only at hs
  cases hd' : (World.run {} steps).dicts[d]? with
  | none => rw [hd'] at hs; cases hs
  | some pos =>
    rw [hd'] at hs
    cases hs
    obtain ⟨r, o, q1, q2, q3⟩ := mem_words.1 hin
    exact ⟨pos, tag, r, o, hd', q1, q2, q3⟩

/-! ### the words a matcher finds -/

private theorem getPos_iff (s : State) (word tag : Str) : tag ∈ s.getPos word ↔ s.wordIsTag word tag = true := by
  unfold State.getPos State.wordIsTag
  constructor
  · intro hm
    obtain ⟨e, he, rfl⟩ := List.mem_map.1 hm
    exact (List.mem_filter.1 he).2
  · intro hm
    have h := of_decide_eq_true hm
    unfold State.wordsOf at h
    cases hr : Dict.get? s.pos tag with
    | none => rw [hr] at h; cases h
    | some r => exact List.mem_map.2 ⟨(tag, r), List.mem_filter.2 ⟨Dict.mem_of_get? hr, hm⟩, rfl⟩

/-- **C108** `LRTemplateMatcher.generate` on a dictionary in any state whatsoever: it finds exactly the candidates the dictionary supports whose two
    parts are no longer than that object's `max_length`. -/
theorem C108_generate (g : LRMatcher) (hord : ∀ l, (g.ord l).Perm l) (token : Str) (w : LR) :
    w ∈ g.generate token ↔ IsCandidate g token w ∧ w.l.length ≤ g.dictionary.maxLength ∧ w.r.length ≤ g.dictionary.maxLength := by
  unfold LRMatcher.generate
  rw [(sorted_perm _ _).mem_iff, List.mem_flatMap]
  have hL : ∀ c : Str × Str × Nat × Nat, c ∈ initializeL g token ↔
      c.2.2.1 + 2 ≤ c.2.2.2 ∧ c.2.2.2 ≤ token.length ∧ c.1 = slice token c.2.2.1 c.2.2.2 ∧ c.2.1 ∈ g.ltags ∧ g.dictionary.wordIsTag c.1 c.2.1 = true ∧ c.1.length ≤ g.dictionary.maxLength := by
    rintro ⟨l, t, b, e⟩
    unfold initializeL
    rw [(sorted_perm _ _).mem_iff, List.mem_flatMap]
    have hmem : ∀ x t, t ∈ posL g x ↔ t ∈ g.ltags ∧ g.dictionary.wordIsTag x t = true := by
      intro x t
      unfold posL
      rw [(hord _).mem_iff, List.mem_filter, getPos_iff g.dictionary x t, decide_eq_true_iff, and_comm]
    constructor
    · rintro ⟨b', hb', hm⟩
      obtain ⟨e', he', hm⟩ := List.mem_flatMap.1 hm
      obtain ⟨t', ht', heq⟩ := List.mem_map.1 hm
      rw [hmem] at ht'
      cases heq
      have := List.mem_range'.1 he'
      obtain ⟨i, hi, he⟩ := this
      have := List.mem_range.1 hb'
      dsimp only
      exact ⟨by omega, by omega, rfl, ht'.1, ht'.2, by rw [length_slice]; omega⟩
    · rintro ⟨h1, h2, h3, h4, h5, hlen⟩
      dsimp only at h1 h2 h3 h4 h5 hlen
      subst h3
      rw [length_slice] at hlen
      refine ⟨b, List.mem_range.2 (by omega), List.mem_flatMap.2 ⟨e, List.mem_range'.2 ⟨e - (b + 2), by omega, by omega⟩, ?_⟩⟩
      exact List.mem_map.2 ⟨t, (hmem _ _).2 ⟨h4, h5⟩, rfl⟩
  constructor
  · rintro ⟨⟨l, t, b, e⟩, hc, hw⟩
    obtain ⟨h1, h2, h3, h4, h5, h6⟩ := (hL _).1 hc
    dsimp only at h1 h2 h3 h4 h5 h6
    unfold expandOne at hw
    obtain ⟨e2, he2, hw⟩ := List.mem_flatMap.1 hw
    obtain ⟨i, hi, he⟩ := List.mem_range'.1 he2
    dsimp only at hi he hw
    split at hw
    · rename_i hnil
      rw [slice_eq_nil (by omega)] at hnil
      rw [List.mem_singleton] at hw
      subst hw
      have : e2 = e := by omega
      subst this
      exact ⟨⟨⟨h1, Nat.le_refl _, h2⟩, h3, by rw [slice_self], t, rfl, h4, h5, Or.inl ⟨rfl, rfl⟩⟩, h6, by simp⟩
    · rename_i hnil
      rw [slice_eq_nil (by omega)] at hnil
      obtain ⟨rt, hrt, rfl⟩ := List.mem_map.1 hw
      obtain ⟨hrt1, hrt2⟩ := List.mem_filter.1 hrt
      exact ⟨⟨⟨h1, by dsimp only; omega, by dsimp only; omega⟩, h3, rfl, t, rfl, h4, h5, Or.inr ⟨by dsimp only; omega, rt, hrt1, rfl, hrt2⟩⟩, h6, by
        dsimp only; rw [length_slice]; omega⟩
  · rintro ⟨⟨⟨h1, h2, h3⟩, hl, hr, t, ht, htl, htw, hcase⟩, hll, hrl⟩
    refine ⟨(w.l, t, w.b, w.m), (hL _).2 ⟨h1, by dsimp only; omega, hl, htl, htw, hll⟩, ?_⟩
    unfold expandOne
    have hbound : w.e ≤ g.dictionary.maxLength + w.m := by
      rw [hr, length_slice] at hrl
      omega
    refine List.mem_flatMap.2 ⟨w.e, List.mem_range'.2 ⟨w.e - w.m, by dsimp only; omega, by dsimp only; omega⟩, ?_⟩
    dsimp only
    rcases hcase with ⟨h, hrt⟩ | ⟨h, rt, hrt1, hrt2, hrt3⟩
    · rw [if_pos (by rw [slice_eq_nil h3]; omega), List.mem_singleton]
      rw [h, slice_self] at hr
      cases w; simp_all
    · rw [if_neg (by rw [slice_eq_nil h3]; omega)]
      refine List.mem_map.2 ⟨rt, List.mem_filter.2 ⟨hrt1, by rw [← hr]; exact hrt3⟩, ?_⟩
      cases w; simp_all

/-! ### concrete cases -/

private def program : List Step :=
  [.container (.list ["아이".toList]), .dict [("Noun".toList, 0)], .construct 0, .construct 0, .add 0 "Noun".toList (.str "트와이스".toList) false]

private def tagsOf (w : World) (k : Nat) (word : Str) : List Str := match w.view k with | some s => s.getPos word | none => []
private def maxOf (w : World) (k : Nat) : Nat := match w.view k with | some s => s.maxLength | none => 0
private def foundBy (w : World) (k : Nat) (token : Str) : List Str := match w.view k with
  | some s => (LRMatcher.generate { dictionary := s } token).map (·.l)
  | none => []

/-- **C108** The second object knows the word that was added through the first, but its `max_length` is still 2, so its matcher does not find the word:
    that no word is longer than `max_length` (C38) holds for an object that has its dict for itself only. -/
theorem C108_stale_max_length :
    tagsOf (World.run {} program) 0 "트와이스".toList = ["Noun".toList] ∧ tagsOf (World.run {} program) 1 "트와이스".toList = ["Noun".toList] ∧
    maxOf (World.run {} program) 0 = 4 ∧ maxOf (World.run {} program) 1 = 2 ∧
    foundBy (World.run {} program) 0 "트와이스".toList = ["트와이스".toList] ∧ foundBy (World.run {} program) 1 "트와이스".toList = [] := by
  decide +kernel

/-- a program for `C108_apart`: two objects on two dicts that the caller built from one container; a word added to one is not known to the other -/
private def separate : List Step :=
  [.container (.set ["아이".toList]), .dict [("Noun".toList, 0)], .dict [("Noun".toList, 0)], .construct 0, .construct 1]

example : (∀ x ∈ separate, Tame x) ∧ (World.run {} separate).objs[1]? = some (1, 2) ∧
    worksOn (World.run {} separate) (.add 0 "Noun".toList (.str "트와이스".toList) false) = 0 := by
  refine ⟨?_, by decide +kernel, by decide +kernel⟩
  intro x hx
  simp only [separate, List.mem_cons, List.not_mem_nil, or_false] at hx
  rcases hx with rfl | rfl | rfl | rfl | rfl <;> trivial
example : tagsOf ((World.run {} separate).step (.add 0 "Noun".toList (.str "트와이스".toList) false)).1 0 "트와이스".toList = ["Noun".toList] ∧
    tagsOf ((World.run {} separate).step (.add 0 "Noun".toList (.str "트와이스".toList) false)).1 1 "트와이스".toList = [] := by decide +kernel

/-- a constructor that raises has replaced the values of the caller's dict all the same: the dict no longer follows the caller's container -/
example : (match ((World.run {} [.container (.list []), .dict [("Noun".toList, 0)]]).step (.construct 0)).2 with | .error .valueError => true | _ => false) = true ∧
    ((World.run {} [.container (.list []), .dict [("Noun".toList, 0)]]).step (.construct 0)).1.dicts = [[("Noun".toList, 1)]] := by decide +kernel

end Props
