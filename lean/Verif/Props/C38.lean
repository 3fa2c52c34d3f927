import Verif.Model.Postagger
import Verif.Py.Enum
import Mathlib.Data.List.Nodup
/-! C38: `postagger.Dictionary`. -/
set_option linter.unusedSimpArgs false
set_option linter.unusedVariables false
namespace Props
open Py PT

/-- the states reachable from a dictionary built from a dict of word collections, by any history of calls (raising or not) -/
inductive DReach : State → Prop
  | create (d : Dict Str (List Str)) (s : State) (hd : d.WF) (h : create d = .ok s) : DReach s
  | load (f : File) (hf : f.posDict.WF) (hm : ∀ e ∈ f.posDict, ∀ w ∈ e.2, w.length ≤ f.maxLength) : DReach (load f)
  | step (s : State) (op : Op) (h : DReach s) : DReach (run s op)

/-- well-formedness: tags are unique, no stored word is longer than `max_length`, references are valid -/
structure DInv (s : State) : Prop where
  wf : s.pos.WF
  bound : ∀ t, ∀ w ∈ s.wordsOf t, w.length ≤ s.maxLength
  refs : ∀ t r, Dict.get? s.pos t = some r → r < s.heap.length

private theorem foldl_max_ge (ws : List Str) (m : Nat) : m ≤ ws.foldl (fun m x => max m x.length) m ∧ ∀ w ∈ ws, w.length ≤ ws.foldl (fun m x => max m x.length) m := by
  induction ws generalizing m with
  | nil => simp
  | cons x ws ih =>
    rw [List.foldl_cons]
    have := ih (max m x.length)
    refine ⟨by omega, ?_⟩
    intro w hw
    rcases List.mem_cons.1 hw with rfl | hw
    · omega
    · exact this.2 w hw

private theorem maxLen_ge {ws : List Str} {m : Nat} (h : maxLen ws = some m) : ∀ w ∈ ws, w.length ≤ m := by
  cases ws with
  | nil => cases h
  | cons x ws =>
    cases h
    have := foldl_max_ge ws x.length
    intro w hw
    rcases List.mem_cons.1 hw with rfl | hw
    · exact this.1
    · exact this.2 w hw

private theorem mem_wordsOf {s : State} {t w : Str} (h : w ∈ s.wordsOf t) : ∃ r o, Dict.get? s.pos t = some r ∧ s.heap[r]? = some o ∧ w ∈ o.words := by
  unfold State.wordsOf at h
  split at h
  · rename_i r hr
    split at h
    · rename_i o ho; exact ⟨r, o, hr, ho, h⟩
    · cases h
  · cases h

private theorem wordsOf_eq {s : State} {t : Str} {r : Nat} {o : Obj} (hr : Dict.get? s.pos t = some r) (ho : s.heap[r]? = some o) :
    s.wordsOf t = o.words := by simp [State.wordsOf, hr, ho]

private theorem keys_fresh (d : Dict Str (List Str)) : (d.zipIdx.map (fun e => (e.1.1, e.2))).map (·.1) = Dict.keys d := by
  rw [List.map_map]
  have := congrArg (List.map Prod.fst) (keys_zipIdx d 0)
  rw [List.map_map] at this
  exact this

/-- a dictionary made of fresh sets, one per tag -/
private theorem fresh_get (d : Dict Str (List Str)) (hd : d.WF) (t : Str) (i : Nat) :
    Dict.get? (d.zipIdx.map (fun e => (e.1.1, e.2))) t = some i ↔ ∃ ws, d[i]? = some (t, ws) := by
  have hwf : Dict.WF (d.zipIdx.map (fun e => (e.1.1, e.2))) := by
    unfold Dict.WF; show (List.map _ _).Nodup; rw [keys_fresh]; exact hd
  rw [← Dict.mem_iff_get? hwf]
  constructor
  · intro h
    obtain ⟨⟨⟨k, ws⟩, j⟩, hm, he⟩ := List.mem_map.1 h
    cases he
    exact ⟨ws, List.mem_zipIdx_iff_getElem?.1 hm⟩
  · rintro ⟨ws, h⟩
    exact List.mem_map.2 ⟨((t, ws), i), List.mem_zipIdx_iff_getElem?.2 h, rfl⟩

private theorem fresh_words (d : Dict Str (List Str)) (hd : d.WF) (n : Nat) (t : Str) :
    State.wordsOf ⟨d.zipIdx.map (fun e => (e.1.1, e.2)), d.map (fun e => Obj.set e.2), n⟩ t = Dict.getD d t [] := by
  cases h : Dict.get? d t with
  | none =>
    have : Dict.get? (d.zipIdx.map (fun e => (e.1.1, e.2))) t = none := by
      rw [Dict.get?_eq_none_iff] at h ⊢
      intro hm; apply h
      have := keys_fresh d
      unfold Dict.keys at hm; rw [this] at hm; exact hm
    simp [State.wordsOf, this, Dict.getD, h]
  | some ws =>
    obtain ⟨i, hi⟩ := List.mem_iff_getElem?.1 (Dict.mem_of_get? h)
    rw [wordsOf_eq (r := i) (o := Obj.set ws) ((fresh_get d hd t i).2 ⟨ws, hi⟩) (by simp [hi])]
    simp [Dict.getD, h, Obj.words]

private theorem fresh_inv (d : Dict Str (List Str)) (hd : d.WF) (n : Nat) (hn : ∀ e ∈ d, ∀ w ∈ e.2, w.length ≤ n) :
    DInv ⟨d.zipIdx.map (fun e => (e.1.1, e.2)), d.map (fun e => Obj.set e.2), n⟩ := by
  refine ⟨?_, ?_, ?_⟩
  · show (List.map _ _).Nodup; rw [keys_fresh]; exact hd
  · intro t w hw
    rw [fresh_words d hd n t] at hw
    cases h : Dict.get? d t with
    | none => simp [Dict.getD, h] at hw
    | some ws => simp only [Dict.getD, h, Option.getD_some] at hw; exact hn _ (Dict.mem_of_get? h) w hw
  · intro t r hr
    obtain ⟨ws, h⟩ := (fresh_get d hd t r).1 hr
    simpa using (List.getElem?_eq_some_iff.1 h).1

private theorem inv_alloc {s : State} (h : DInv s) (o : Obj) : DInv ⟨s.pos, s.heap ++ [o], s.maxLength⟩ ∧
    ∀ t, State.wordsOf ⟨s.pos, s.heap ++ [o], s.maxLength⟩ t = s.wordsOf t := by
  have hw : ∀ t, State.wordsOf ⟨s.pos, s.heap ++ [o], s.maxLength⟩ t = s.wordsOf t := by
    intro t
    unfold State.wordsOf
    cases hr : Dict.get? s.pos t with
    | none => simp [hr]
    | some r =>
      have := h.refs t r hr
      simp [hr, List.getElem?_append_left this]
  refine ⟨⟨h.wf, fun t w hm => h.bound t w (by rw [hw] at hm; exact hm), ?_⟩, hw⟩
  intro t r hr
  have := h.refs t r hr
  simp; omega

private theorem typeCheck_spec {s : State} (h : DInv s) (a : Arg) :
    DInv (typeCheck s a).1 ∧ (∀ t, (typeCheck s a).1.wordsOf t = s.wordsOf t) ∧ (typeCheck s a).1.pos = s.pos ∧
    (typeCheck s a).1.maxLength = s.maxLength := by
  cases a with
  | str t => exact ⟨(inv_alloc h _).1, (inv_alloc h _).2, rfl, rfl⟩
  | ref r => exact ⟨h, fun _ => rfl, rfl, rfl⟩

private theorem wordsOf_ext {s : State} {heap : List Obj} {n : Nat} (t : Str) :
    State.wordsOf ⟨s.pos, heap, n⟩ t = match Dict.get? s.pos t with
      | some r => match heap[r]? with
        | some o => o.words
        | none => []
      | none => [] := rfl

private theorem words_heap_set {s : State} (h : DInv s) {d : Nat} {o : Obj} (ho : s.heap[d]? = some o) (o' : Obj) (n : Nat) (t : Str) :
    State.wordsOf ⟨s.pos, s.heap.set d o', n⟩ t = if Dict.get? s.pos t = some d then o'.words else s.wordsOf t := by
  have hd : d < s.heap.length := (List.getElem?_eq_some_iff.1 ho).1
  unfold State.wordsOf
  cases hr : Dict.get? s.pos t with
  | none => simp [hr]
  | some r =>
    by_cases hrd : r = d
    · subst hrd; simp [hr, hd]
    · have : d ≠ r := fun e => hrd e.symm
      simp [hr, hrd, List.getElem?_set, this]

private theorem inv_addStore {s : State} (h : DInv s) (tag : Str) (r : Nat) (o : Obj) (ho : s.heap[r]? = some o)
    (hl : ∀ w ∈ o.words, w.length ≤ s.maxLength) : DInv (addStore s tag r o.words).1 := by
  unfold addStore
  have hr : r < s.heap.length := (List.getElem?_eq_some_iff.1 ho).1
  split
  · refine ⟨h.wf.set _ _, ?_, ?_⟩
    · intro t w hw
      obtain ⟨r', o', h1, h2, h3⟩ := mem_wordsOf hw
      dsimp only at h1 h2
      rw [Dict.get?_set] at h1
      split at h1
      · cases h1; rw [ho] at h2; cases h2; exact hl w h3
      · exact h.bound t w (by rw [wordsOf_eq h1 h2]; exact h3)
    · intro t r' h1
      dsimp only at h1
      rw [Dict.get?_set] at h1
      split at h1
      · cases h1; exact hr
      · exact h.refs t r' h1
  · rename_i d hd
    split
    · rename_i l hdl
      refine ⟨h.wf.set _ _, ?_, ?_⟩
      · intro t w hw
        obtain ⟨r', o', h1, h2, h3⟩ := mem_wordsOf hw
        dsimp only at h1 h2
        have h1' : Dict.get? s.pos t = some r' := by
          rw [Dict.get?_set] at h1
          split at h1
          · rename_i e; cases h1; rw [← e]; exact hd
          · exact h1
        rw [List.getElem?_set] at h2
        split at h2
        · rename_i e
          split at h2
          · cases h2
            rcases List.mem_append.1 h3 with h3 | h3
            · exact h.bound t w (by rw [wordsOf_eq h1' (e ▸ hdl)]; exact h3)
            · exact hl w h3
          · cases h2
        · exact h.bound t w (by rw [wordsOf_eq h1' h2]; exact h3)
      · intro t r' h1
        dsimp only at h1 ⊢
        rw [List.length_set]
        rw [Dict.get?_set] at h1
        split at h1
        · cases h1; exact h.refs tag d hd
        · exact h.refs t r' h1
    · exact h

private theorem inv_grow {s : State} (h : DInv s) (m : Nat) : DInv ⟨s.pos, s.heap, if s.maxLength < m then m else s.maxLength⟩ := by
  refine ⟨h.wf, ?_, h.refs⟩
  intro t w hw
  have := h.bound t w hw
  dsimp only; split <;> omega

private theorem inv_add {s : State} (h : DInv s) (tag : Str) (a : Arg) (force : Bool) : DInv (addWords s tag a force).1 := by
  obtain ⟨h1, _, _, _⟩ := typeCheck_spec h a
  unfold addWords
  generalize typeCheck s a = tc at *
  obtain ⟨s1, r⟩ := tc
  dsimp only at *
  split
  · exact h1
  split
  · exact h1
  · rename_i o ho
    split
    · exact h1
    · rename_i m hm
      apply inv_addStore (inv_grow h1 m) tag r o ho
      intro w hw
      have := maxLen_ge hm w hw
      dsimp only; split <;> omega

private theorem inv_remove {s : State} (h : DInv s) (tag : Str) (a : Option Arg) : DInv (removeWords s tag a).1 := by
  unfold removeWords
  split
  · exact h
  cases a with
  | none =>
    refine ⟨h.wf.erase _, ?_, ?_⟩
    · intro t w hw
      obtain ⟨r, o, h1, h2, h3⟩ := mem_wordsOf hw
      dsimp only at h1 h2
      rw [Dict.get?_erase] at h1
      split at h1
      · cases h1
      · exact h.bound t w (by rw [wordsOf_eq h1 h2]; exact h3)
    · intro t r h1
      dsimp only at h1
      rw [Dict.get?_erase] at h1
      split at h1
      · cases h1
      · exact h.refs t r h1
  | some a =>
    obtain ⟨h1, _, _, _⟩ := typeCheck_spec h a
    dsimp only
    generalize typeCheck s a = tc at *
    obtain ⟨s1, r⟩ := tc
    dsimp only at *
    unfold removeStore
    split
    · exact h1
    · rename_i d hd
      split
      · rename_i l ws hl hws
        refine ⟨h1.wf, ?_, ?_⟩
        · intro t w hw
          rw [words_heap_set h1 hl] at hw
          split at hw
          · rename_i e
            exact h1.bound t w (by rw [wordsOf_eq e hl]; exact (List.mem_filter.1 hw).1)
          · exact h1.bound t w hw
        · intro t r' h2
          dsimp only; rw [List.length_set]; exact h1.refs t r' h2
      · exact h1

theorem DReach.inv {s : State} (h : DReach s) : DInv s := by
  induction h with
  | create d s hd h =>
    unfold PT.create at h
    split at h
    · cases h
    · rename_i m hm
      cases h
      apply fresh_inv d hd
      intro e he w hw
      exact maxLen_ge hm w (List.mem_flatMap.2 ⟨e, he, hw⟩)
  | load f hf hm => exact fresh_inv f.posDict hf _ hm
  | step s op h ih =>
    cases op with
    | alloc o => exact (inv_alloc ih o).1
    | add t w f => exact inv_add ih t w f
    | remove t w => exact inv_remove ih t w

/-- **C38** After any history of calls, raising or not, no stored word is longer than `max_length`. -/
theorem C38_max_length (s : State) (h : DReach s) (word tag : Str) (hw : s.wordIsTag word tag = true) : word.length ≤ s.maxLength := by
  unfold State.wordIsTag at hw
  exact h.inv.bound tag word (of_decide_eq_true hw)

/-- **C38** `get_pos` lists exactly the tags of a word, each once. -/
theorem C38_get_pos (s : State) (h : DReach s) (word tag : Str) :
    (s.getPos word).Nodup ∧ (tag ∈ s.getPos word ↔ s.wordIsTag word tag = true) := by
  have hwf := h.inv.wf
  refine ⟨hwf.filter _, ?_⟩
  unfold State.getPos State.wordIsTag
  constructor
  · intro hm
    obtain ⟨e, he, rfl⟩ := List.mem_map.1 hm
    exact (List.mem_filter.1 he).2
  · intro hm
    obtain ⟨r, o, h1, _, _⟩ := mem_wordsOf (of_decide_eq_true hm)
    exact List.mem_map.2 ⟨(tag, r), List.mem_filter.2 ⟨Dict.mem_of_get? h1, hm⟩, rfl⟩

/-- the words an argument denotes -/
def argWords (s : State) : Arg → List Str
  | .str t => splitWs t
  | .ref r => match s.heap[r]? with
    | some o => o.words
    | none => []

/-- no other tag is stored in the same set object as `tag`; `a` (the argument) is not the set object of another tag either -/
def Unshared (s : State) (tag : Str) : Prop := ∀ t r, Dict.get? s.pos tag = some r → Dict.get? s.pos t = some r → t = tag

private theorem typeCheck_words (s : State) (a : Arg) : ∀ o, (typeCheck s a).1.heap[(typeCheck s a).2]? = some o → o.words = argWords s a := by
  intro o ho
  cases a with
  | str t => simp [typeCheck] at ho; subst ho; rfl
  | ref r => simp only [typeCheck] at ho; simp [argWords, ho]

/-- **C38** A successful `add_words` adds exactly the given words to the tag — in that tag and, when the tag's set object is not
    shared, in no other; `max_length` never shrinks. -/
theorem C38_add (s : State) (h : DReach s) (tag : Str) (a : Arg) (force : Bool) (hok : (addWords s tag a force).2 = .ok ()) :
    (∀ w, (addWords s tag a force).1.wordIsTag w tag = true ↔ s.wordIsTag w tag = true ∨ w ∈ argWords s a) ∧
    (Unshared s tag → ∀ t w, t ≠ tag → (addWords s tag a force).1.wordIsTag w t = s.wordIsTag w t) ∧
    s.maxLength ≤ (addWords s tag a force).1.maxLength := by
  obtain ⟨h1, hw1, hp1, hm1⟩ := typeCheck_spec h.inv a
  have hargs := typeCheck_words s a
  simp only [State.wordIsTag, decide_eq_true_eq, decide_eq_decide]
  unfold Unshared
  rw [← hp1, ← hm1]
  simp only [← hw1]
  unfold addWords at hok ⊢
  generalize typeCheck s a = tc at *
  obtain ⟨s1, r⟩ := tc
  dsimp only at *
  split at hok
  · cases hok
  rename_i hcond
  rw [if_neg hcond]
  split at hok
  · cases hok
  rename_i o ho
  have hargs' := hargs o ho
  split at hok
  · cases hok
  rename_i m hm
  try simp only [hm]
  have hbig := inv_grow h1 m
  generalize hs2 : (⟨s1.pos, s1.heap, if s1.maxLength < m then m else s1.maxLength⟩ : State) = s2 at *
  have e1 : s2.pos = s1.pos := by rw [← hs2]
  have e2 : s2.heap = s1.heap := by rw [← hs2]
  have e3 : s1.maxLength ≤ s2.maxLength := by rw [← hs2]; dsimp only; split <;> omega
  have e4 : ∀ t, s1.wordsOf t = s2.wordsOf t := by intro t; rw [← hs2]; rfl
  rw [← hargs']
  rw [← e1]
  simp only [e4]
  rw [← e2] at ho
  unfold addStore at hok ⊢
  split at hok
  · rename_i hnone
    simp only [hnone]
    refine ⟨fun w => ?_, fun _ t w ht => ?_, e3⟩
    · rw [wordsOf_eq (s := ⟨Dict.set s2.pos tag r, s2.heap, s2.maxLength⟩) (r := r) (o := o) (by simp [Dict.get?_set]) ho]
      have : s2.wordsOf tag = [] := by simp [State.wordsOf, hnone]
      rw [this]; simp
    · unfold State.wordsOf; simp [Dict.get?_set, Ne.symm ht]
  · rename_i d hd
    simp only [hd]
    split at hok
    · rename_i l hl
      simp only [hl]
      have hsame : ∀ t, Dict.get? (Dict.set s2.pos tag d) t = Dict.get? s2.pos t := by
        intro t; rw [Dict.get?_set]; split
        · rename_i e; rw [← e, hd]
        · rfl
      have hwords : ∀ t, State.wordsOf ⟨Dict.set s2.pos tag d, s2.heap.set d (.set (l ++ o.words)), s2.maxLength⟩ t =
          if Dict.get? s2.pos t = some d then l ++ o.words else s2.wordsOf t := by
        intro t
        have := words_heap_set hbig hl (.set (l ++ o.words)) s2.maxLength t
        unfold State.wordsOf at this ⊢
        dsimp only at this ⊢
        rw [hsame, this]; rfl
      refine ⟨fun w => ?_, fun hu t w ht => ?_, e3⟩
      · rw [hwords, if_pos hd, wordsOf_eq hd hl]; simp [Obj.words]
      · rw [hwords, if_neg]
        intro hc
        exact ht (hu t d rfl hc)
    · cases hok

/-- **C38** A successful `remove_words` with words removes exactly these words from the tag and, when its set object is not shared,
    changes no other tag; without words it removes the tag and changes no other. -/
theorem C38_remove (s : State) (h : DReach s) (tag : Str) :
    (∀ a, (removeWords s tag (some a)).2 = .ok () →
      (∀ w, (removeWords s tag (some a)).1.wordIsTag w tag = true ↔ s.wordIsTag w tag = true ∧ w ∉ argWords s a) ∧
      (Unshared s tag → ∀ t w, t ≠ tag → (removeWords s tag (some a)).1.wordIsTag w t = s.wordIsTag w t)) ∧
    ((removeWords s tag none).2 = .ok () →
      ∀ t w, (removeWords s tag none).1.wordIsTag w t = (decide (t ≠ tag) && s.wordIsTag w t)) := by
  constructor
  · intro a hok
    obtain ⟨h1, hw1, hp1, _⟩ := typeCheck_spec h.inv a
    have hargs := typeCheck_words s a
    simp only [State.wordIsTag, decide_eq_true_eq, decide_eq_decide]
    unfold Unshared
    unfold removeWords at hok ⊢
    split at hok
    · cases hok
    rename_i hhas
    rw [if_neg hhas]
    dsimp only at hok ⊢
    rw [← hp1]
    simp only [← hw1]
    generalize typeCheck s a = tc at *
    obtain ⟨s1, r⟩ := tc
    dsimp only at *
    unfold removeStore at hok ⊢
    split at hok
    · cases hok
    rename_i d hd
    simp only [hd]
    split at hok
    · rename_i l ws hl hws
      simp only [hl, hws]
      have ha := hargs _ hws
      refine ⟨fun w => ?_, fun hu t w ht => ?_⟩
      · rw [words_heap_set h1 hl, if_pos hd, wordsOf_eq hd hl, ← ha]; simp [Obj.words]
      · rw [words_heap_set h1 hl, if_neg]
        intro hc
        exact ht (hu t d rfl hc)
    · cases hok
  · intro hok t w
    unfold removeWords at hok ⊢
    split at hok
    · cases hok
    rename_i hhas
    rw [if_neg hhas]
    dsimp only
    rw [Bool.eq_iff_iff]
    simp only [State.wordIsTag, decide_eq_true_eq, Bool.and_eq_true]
    unfold State.wordsOf
    dsimp only
    rw [Dict.get?_erase]
    by_cases e : tag = t
    · simp [e]
    · simp [e, Ne.symm e]

/-- a history in which no container created by the caller is handed over for a tag the dictionary does not know yet -/
inductive DFresh : State → Prop
  | create (d : Dict Str (List Str)) (s : State) (hd : d.WF) (h : create d = .ok s) : DFresh s
  | load (f : File) (hf : f.posDict.WF) (hm : ∀ e ∈ f.posDict, ∀ w ∈ e.2, w.length ≤ f.maxLength) : DFresh (load f)
  | step (s : State) (op : Op) (h : DFresh s) (hop : ∀ t r f, op = .add t (.ref r) f → Dict.has s.pos t = true) : DFresh (run s op)

theorem DFresh.reach {s : State} (h : DFresh s) : DReach s := by
  induction h with
  | create d s hd h => exact .create d s hd h
  | load f hf hm => exact .load f hf hm
  | step s op h hop ih => exact .step s op ih

/-- **C38** In such histories (in particular when words are always given as strings) no two tags ever share a set object, so the calls
    never change another tag. -/
theorem C38_unshared (s : State) (h : DFresh s) (tag : Str) : Unshared s tag := by
  induction h generalizing tag with
  | create d s hd h =>
    unfold PT.create at h
    split at h
    · cases h
    · cases h
      intro t r h1 h2
      obtain ⟨_, e1⟩ := (fresh_get d hd _ _).1 h1
      obtain ⟨_, e2⟩ := (fresh_get d hd _ _).1 h2
      rw [e1] at e2; cases e2; rfl
  | load f hf hm =>
    intro t r h1 h2
    obtain ⟨_, e1⟩ := (fresh_get f.posDict hf _ _).1 h1
    obtain ⟨_, e2⟩ := (fresh_get f.posDict hf _ _).1 h2
    rw [e1] at e2; cases e2; rfl
  | step s op h hop ih =>
    have hinv := h.reach.inv
    cases op with
    | alloc o => exact ih tag
    | remove t a =>
      show Unshared (removeWords s t a).1 tag
      unfold removeWords
      split
      · exact ih tag
      cases a with
      | none =>
        intro t' r h1 h2
        dsimp only at h1 h2
        rw [Dict.get?_erase] at h1 h2
        split at h1
        · cases h1
        split at h2
        · cases h2
        exact ih tag t' r h1 h2
      | some a =>
        dsimp only
        have hp : (removeStore (typeCheck s a).1 t (typeCheck s a).2).1.pos = s.pos := by
          have := (typeCheck_spec hinv a).2.2.1
          unfold removeStore
          split
          · exact this
          · split <;> exact this
        intro t' r h1 h2
        rw [hp] at h1 h2
        exact ih tag t' r h1 h2
    | add t a f =>
      show Unshared (addWords s t a f).1 tag
      obtain ⟨h1, _, hp1, _⟩ := typeCheck_spec hinv a
      have hfresh : ∀ t' r', Dict.get? s.pos t' = some r' → Dict.get? s.pos t = none → r' ≠ (typeCheck s a).2 := by
        intro t' r' hr hn
        cases a with
        | str x => have := hinv.refs t' r' hr; simp only [typeCheck]; omega
        | ref r =>
          have := hop t r f rfl
          rw [Dict.has, hn] at this; cases this
      have ihp : ∀ t0 t' r, Dict.get? s.pos t0 = some r → Dict.get? s.pos t' = some r → t' = t0 := fun t0 t' r a b => ih t0 t' r a b
      unfold addWords
      generalize typeCheck s a = tc at *
      obtain ⟨s1, r⟩ := tc
      dsimp only at *
      rw [← hp1] at ihp hfresh
      have hs1 : ∀ n, Unshared ⟨s1.pos, s1.heap, n⟩ tag := fun n t' r' a b => ihp tag t' r' a b
      split
      · exact hs1 s1.maxLength
      split
      · exact hs1 s1.maxLength
      rename_i o ho
      split
      · exact hs1 s1.maxLength
      rename_i m hm
      unfold addStore
      dsimp only
      split
      · rename_i hn
        intro t' r' h1 h2
        dsimp only at h1 h2
        rw [Dict.get?_set] at h1 h2
        split at h1
        · rename_i e1
          cases h1
          split at h2
          · rename_i e2; rw [← e1, ← e2]
          · exact absurd rfl (hfresh t' r h2 hn)
        · split at h2
          · cases h2
            exact absurd rfl (hfresh tag r h1 hn)
          · exact ihp tag t' r' h1 h2
      · rename_i d hd
        split
        · intro t' r' h1 h2
          dsimp only at h1 h2
          have hsame : ∀ t', Dict.get? (Dict.set s1.pos t d) t' = Dict.get? s1.pos t' := by
            intro t'; rw [Dict.get?_set]; split
            · rename_i e; rw [← e, hd]
            · rfl
          rw [hsame] at h1 h2
          exact ihp tag t' r' h1 h2
        · exact hs1 _

/-- the container stored for a tag is a list (handed over by the caller), not a set -/
def ListTag (s : State) (tag : Str) : Prop := ∃ r l, Dict.get? s.pos tag = some r ∧ s.heap[r]? = some (.list l)

/-- the argument is a string, or a container the caller has created -/
def ArgOK (s : State) : Arg → Prop
  | .str _ => True
  | .ref r => r < s.heap.length

/-- the argument is a list -/
def ListArg (s : State) (a : Arg) : Prop := ∃ r l, a = .ref r ∧ s.heap[r]? = some (.list l)

private theorem maxLen_none {ws : List Str} : maxLen ws = none ↔ ws = [] := by
  cases ws <;> simp [maxLen]

private theorem maxLen_attained {ws : List Str} {m : Nat} (h : maxLen ws = some m) : ∃ w ∈ ws, w.length = m := by
  have key : ∀ (l : List Str) (k : Nat), l.foldl (fun m x => max m x.length) k = k ∨ ∃ w ∈ l, w.length = l.foldl (fun m x => max m x.length) k := by
    intro l
    induction l with
    | nil => intro k; exact .inl rfl
    | cons x l ih =>
      intro k
      rw [List.foldl_cons]
      rcases ih (max k x.length) with h | ⟨w, hw, h⟩
      · rw [h]
        by_cases hk : x.length ≤ k
        · left; omega
        · right; exact ⟨x, List.mem_cons_self, by omega⟩
      · right; exact ⟨w, List.mem_cons_of_mem _ hw, h⟩
  cases ws with
  | nil => cases h
  | cons x l =>
    cases h
    rcases key l x.length with h | ⟨w, hw, h⟩
    · exact ⟨x, List.mem_cons_self, h.symm⟩
    · exact ⟨w, List.mem_cons_of_mem _ hw, h⟩

/-- **C38** The constructor raises ValueError when there is no word at all; otherwise each tag has exactly its words and `max_length` is the
    length of the longest word. -/
theorem C38_create (d : Dict Str (List Str)) (hd : d.WF) :
    ((∀ e ∈ d, e.2 = []) → create d = .error .valueError) ∧
    ((∃ e ∈ d, e.2 ≠ []) → ∃ s, create d = .ok s ∧ (∀ w t, s.wordIsTag w t = true ↔ w ∈ Dict.getD d t []) ∧ Dict.keys s.pos = Dict.keys d ∧
      (∃ e ∈ d, ∃ w ∈ e.2, w.length = s.maxLength) ∧ ∀ e ∈ d, ∀ w ∈ e.2, w.length ≤ s.maxLength) := by
  unfold create
  constructor
  · intro h
    have : d.flatMap (·.2) = [] := by rw [List.flatMap_eq_nil_iff]; exact h
    rw [this]
    rfl
  · rintro ⟨e, he, hne⟩
    cases hm : maxLen (d.flatMap (·.2)) with
    | none =>
      rw [maxLen_none, List.flatMap_eq_nil_iff] at hm
      exact absurd (hm e he) hne
    | some m =>
      refine ⟨_, rfl, ?_, ?_, ?_, ?_⟩
      · intro w t
        unfold State.wordIsTag
        rw [decide_eq_true_iff, fresh_words d hd]
      · exact keys_fresh d
      · obtain ⟨w, hw, h⟩ := maxLen_attained hm
        obtain ⟨e, he, hwe⟩ := List.mem_flatMap.1 hw
        exact ⟨e, he, w, hwe, h⟩
      · intro e he w hw
        exact maxLen_ge hm w (List.mem_flatMap.2 ⟨e, he, hw⟩)

private theorem typeCheck_heap (s : State) (a : Arg) (ha : ArgOK s a) : ∃ o, (typeCheck s a).1.heap[(typeCheck s a).2]? = some o := by
  cases a with
  | str t => exact ⟨.set (splitWs t), by simp [typeCheck]⟩
  | ref r => exact ⟨s.heap[r]'ha, List.getElem?_eq_getElem ha⟩

private theorem typeCheck_old (s : State) (h : DInv s) (a : Arg) (t : Str) (r : Nat) (hr : Dict.get? s.pos t = some r) :
    (typeCheck s a).1.heap[r]? = s.heap[r]? := by
  have := h.refs t r hr
  cases a with
  | str t => simp only [typeCheck]; rw [List.getElem?_append_left this]
  | ref r => rfl

private theorem listTag_iff {s : State} {tag : Str} {d : Nat} (hg : Dict.get? s.pos tag = some d) : ListTag s tag ↔ ∃ l, s.heap[d]? = some (.list l) := by
  constructor
  · rintro ⟨r, l, h1, h2⟩; rw [hg] at h1; cases h1; exact ⟨l, h2⟩
  · rintro ⟨l, h⟩; exact ⟨d, l, hg, h⟩

/-- **C38** The outcome of `add_words`: ValueError for an unknown tag unless `force=True`, and for an empty collection of words; AttributeError if the
    tag's container is a list; otherwise success. Whenever it raises no word's tags change. `max_length` grows to the longest new word when the words were
    accepted and is never changed otherwise. -/
theorem C38_add_outcome (s : State) (h : DReach s) (tag : Str) (a : Arg) (ha : ArgOK s a) (force : Bool) :
    ((force = false ∧ tag ∉ Dict.keys s.pos) ∨ argWords s a = [] →
      (addWords s tag a force).2 = .error .valueError ∧ (addWords s tag a force).1.maxLength = s.maxLength) ∧
    (¬ (force = false ∧ tag ∉ Dict.keys s.pos) → argWords s a ≠ [] →
      (ListTag s tag → (addWords s tag a force).2 = .error .attributeError) ∧ (¬ ListTag s tag → (addWords s tag a force).2 = .ok ()) ∧
      (∀ n, (addWords s tag a force).1.maxLength ≤ n ↔ s.maxLength ≤ n ∧ ∀ w ∈ argWords s a, w.length ≤ n)) ∧
    ((addWords s tag a force).2 ≠ .ok () → (∀ w t, (addWords s tag a force).1.wordIsTag w t = s.wordIsTag w t)) := by
  obtain ⟨h1, hw1, hp1, hm1⟩ := typeCheck_spec h.inv a
  obtain ⟨o, ho⟩ := typeCheck_heap s a ha
  have hargs := typeCheck_words s a o ho
  have hold := typeCheck_old s h.inv a
  have hhas : Dict.has s.pos tag = false ↔ tag ∉ Dict.keys s.pos := by
    rw [← Dict.isSome_get?_iff, Bool.not_eq_true]
  unfold addWords
  generalize typeCheck s a = tc at *
  obtain ⟨s1, r⟩ := tc
  dsimp only at *
  have hwt : ∀ w t, s1.wordIsTag w t = s.wordIsTag w t := by
    intro w t; unfold State.wordIsTag; rw [hw1]
  have hc : (force = false ∧ Dict.has s1.pos tag = false) ↔ (force = false ∧ tag ∉ Dict.keys s.pos) := by rw [hp1, hhas]
  by_cases hcond : force = false ∧ Dict.has s1.pos tag = false
  · rw [if_pos hcond]
    exact ⟨fun _ => ⟨rfl, hm1⟩, fun hn => absurd (hc.1 hcond) hn, fun _ => hwt⟩
  · rw [if_neg hcond, ho]
    dsimp only
    cases hm : maxLen o.words with
    | none =>
      dsimp only
      have := maxLen_none.1 hm
      rw [hargs] at this
      exact ⟨fun _ => ⟨rfl, hm1⟩, fun _ hn => absurd this hn, fun _ => hwt⟩
    | some m =>
      dsimp only
      have hne : argWords s a ≠ [] := by
        rw [← hargs]; intro h0; rw [h0] at hm; cases hm
      have hmax : ∀ n, (if s1.maxLength < m then m else s1.maxLength) ≤ n ↔ s.maxLength ≤ n ∧ ∀ w ∈ argWords s a, w.length ≤ n := by
        intro n
        rw [hm1, ← hargs]
        obtain ⟨w0, hw0, hl0⟩ := maxLen_attained hm
        have hge := maxLen_ge hm
        constructor
        · intro hle
          refine ⟨by split at hle <;> omega, fun w hw => ?_⟩
          have := hge w hw
          split at hle <;> omega
        · rintro ⟨hs, hall⟩
          have := hall w0 hw0
          split <;> omega
      refine ⟨fun hbad => ?_, fun _ _ => ?_, ?_⟩
      · rcases hbad with hb | hb
        · exact absurd (hc.2 hb) hcond
        · exact absurd hb hne
      · unfold addStore
        dsimp only
        cases hg : Dict.get? s1.pos tag with
        | none =>
          dsimp only
          refine ⟨?_, fun _ => rfl, hmax⟩
          rintro ⟨r, l, hr, _⟩
          rw [hp1, hr] at hg; cases hg
        | some d =>
          dsimp only
          have hg' : Dict.get? s.pos tag = some d := by rw [← hp1]; exact hg
          have hh := hold tag d hg'
          rw [listTag_iff hg', hh]
          cases hd : s.heap[d]? with
          | none => exact absurd (h.inv.refs _ _ hg') (by have := List.getElem?_eq_none_iff.1 hd; omega)
          | some o' =>
            cases o' with
            | set l => dsimp only; exact ⟨fun ⟨l', hl'⟩ => by (cases hl'), fun _ => rfl, hmax⟩
            | list l => dsimp only; exact ⟨fun _ => rfl, fun hn => absurd ⟨l, rfl⟩ hn, hmax⟩
      · unfold addStore
        dsimp only
        intro hn w t
        cases hg : Dict.get? s1.pos tag with
        | none => rw [hg] at hn; exact absurd rfl hn
        | some d =>
          rw [hg] at hn
          dsimp only at hn ⊢
          cases hx : s1.heap[d]? with
          | none => exact hwt w t
          | some o' =>
            rw [hx] at hn
            cases o' with
            | set l => exact absurd rfl hn
            | list l => exact hwt w t

/-- **C38** The outcome of `remove_words`: ValueError for an unknown tag; otherwise success without words; with words, TypeError if the tag's container
    or the words given are a list, success if both are sets (or the words a string). Whenever it raises nothing changes, and `max_length` never changes. -/
theorem C38_remove_outcome (s : State) (h : DReach s) (tag : Str) (a : Option Arg) (ha : ∀ x, a = some x → ArgOK s x) :
    (tag ∉ Dict.keys s.pos → (removeWords s tag a).2 = .error .valueError) ∧
    (tag ∈ Dict.keys s.pos → a = none → (removeWords s tag a).2 = .ok ()) ∧
    (∀ x, tag ∈ Dict.keys s.pos → a = some x → (ListTag s tag ∨ ListArg s x → (removeWords s tag a).2 = .error .typeError) ∧
      (¬ (ListTag s tag ∨ ListArg s x) → (removeWords s tag a).2 = .ok ())) ∧
    ((removeWords s tag a).2 ≠ .ok () → ∀ w t, (removeWords s tag a).1.wordIsTag w t = s.wordIsTag w t) ∧
    (removeWords s tag a).1.maxLength = s.maxLength := by
  have hhas : Dict.has s.pos tag = false ↔ tag ∉ Dict.keys s.pos := by
    rw [← Dict.isSome_get?_iff, Bool.not_eq_true]
  unfold removeWords
  by_cases hk : Dict.has s.pos tag = false
  · rw [if_pos hk]
    have hn := hhas.1 hk
    exact ⟨fun _ => rfl, fun h => absurd h hn, fun _ h => absurd h hn, fun _ _ _ => rfl, rfl⟩
  · rw [if_neg hk]
    have hn : tag ∈ Dict.keys s.pos := by
      by_cases hx : tag ∈ Dict.keys s.pos
      · exact hx
      · exact absurd (hhas.2 hx) hk
    cases a with
    | none => exact ⟨fun h => absurd hn h, fun _ _ => rfl, fun x _ h => by (cases h), fun h => absurd rfl h, rfl⟩
    | some x =>
      dsimp only
      obtain ⟨h1, hw1, hp1, hm1⟩ := typeCheck_spec h.inv x
      obtain ⟨o, ho⟩ := typeCheck_heap s x (ha x rfl)
      have hold := typeCheck_old s h.inv x
      have hla : ListArg s x ↔ ∃ l, o = .list l := by
        cases x with
        | str t =>
          simp only [typeCheck] at ho
          rw [List.getElem?_append_right (Nat.le_refl _), Nat.sub_self] at ho
          cases ho
          constructor
          · rintro ⟨r, l, h, _⟩; cases h
          · rintro ⟨l, h⟩; cases h
        | ref r =>
          have ho : s.heap[r]? = some o := ho
          constructor
          · rintro ⟨r', l, h, h'⟩; cases h; rw [ho] at h'; cases h'; exact ⟨l, rfl⟩
          · rintro ⟨l, rfl⟩; exact ⟨r, l, rfl, ho⟩
      generalize typeCheck s x = tc at *
      obtain ⟨s1, r⟩ := tc
      dsimp only at *
      obtain ⟨d, hg'⟩ := Option.isSome_iff_exists.1 ((Dict.isSome_get?_iff s.pos tag).2 hn)
      have hg : Dict.get? s1.pos tag = some d := by rw [hp1]; exact hg'
      have hh := hold tag d hg'
      unfold removeStore
      simp only [hg, hh, ho]
      rw [listTag_iff hg']
      have hwt : ∀ w t, s1.wordIsTag w t = s.wordIsTag w t := by
        intro w t; unfold State.wordIsTag; rw [hw1]
      cases hd : s.heap[d]? with
      | none => exact absurd (h.inv.refs _ _ hg') (by have := List.getElem?_eq_none_iff.1 hd; omega)
      | some o' =>
        refine ⟨fun hx => absurd hn hx, fun _ hx => by (cases hx), ?_, ?_, ?_⟩
        · intro y _ hy
          cases hy
          rw [hla]
          cases o' with
          | set l =>
            cases o with
            | set l' => exact ⟨by (rintro (⟨_, h⟩ | ⟨_, h⟩) <;> cases h), fun _ => rfl⟩
            | list l' => exact ⟨fun _ => rfl, fun hx => absurd (.inr ⟨l', rfl⟩) hx⟩
          | list l => exact ⟨fun _ => rfl, fun hx => absurd (.inl ⟨l, rfl⟩) hx⟩
        · intro hx w t
          cases o' with
          | set l =>
            cases o with
            | set l' => exact absurd rfl hx
            | list l' => exact hwt w t
          | list l => exact hwt w t
        · cases o' with
          | set l =>
            cases o with
            | set l' => exact hm1
            | list l' => exact hm1
          | list l => exact hm1

/-- the hypotheses of the outcome theorems hold, for a history that has handed over a list -/
example : DReach (run (run (⟨[("N".toList, 0)], [.set ["x".toList]], 1⟩ : State) (.alloc (.list ["b".toList]))) (.add "L".toList (.ref 1) true)) ∧
    ListTag (run (run (⟨[("N".toList, 0)], [.set ["x".toList]], 1⟩ : State) (.alloc (.list ["b".toList]))) (.add "L".toList (.ref 1) true)) "L".toList ∧
    ArgOK (run (run (⟨[("N".toList, 0)], [.set ["x".toList]], 1⟩ : State) (.alloc (.list ["b".toList]))) (.add "L".toList (.ref 1) true)) (.ref 1) :=
  ⟨.step _ _ (.step _ _ (.create [("N".toList, ["x".toList])] _ (by unfold Dict.WF; decide) rfl)), ⟨1, ["b".toList], by decide +kernel, by decide +kernel⟩, by
    show 1 < List.length _; decide +kernel⟩

/-- **C38** Sharing does happen otherwise: handing the same set to two new tags makes them one set — words later added to the first tag
    appear under the second — and a list handed over makes the tag unusable for further additions (AttributeError). -/
theorem C38_aliasing :
    ∃ s, DReach s ∧
      s.wordIsTag "c".toList "B".toList = false ∧
      (addWords s "A".toList (.str "c".toList) false).2 = .ok () ∧
      (addWords s "A".toList (.str "c".toList) false).1.wordIsTag "c".toList "B".toList = true ∧
      (addWords s "L".toList (.str "c".toList) false).2 = .error .attributeError := by
  refine ⟨run (run (run (run (run (⟨[(("N".toList), 0)], [.set ["x".toList]], 1⟩ : State) (.alloc (.set ["a".toList]))) (.alloc (.list ["b".toList])))
    (.add "A".toList (.ref 1) true)) (.add "B".toList (.ref 1) true)) (.add "L".toList (.ref 2) true), ?_, by decide +kernel, by decide +kernel, by decide +kernel, by decide +kernel⟩
  exact .step _ _ (.step _ _ (.step _ _ (.step _ _ (.step _ _ (.create [("N".toList, ["x".toList])] _ (by unfold Dict.WF; decide) rfl)))))

/-- **C38** `load (save d)` restores the dictionary: same tags for every word, same `max_length`. -/
theorem C38_save_load (s : State) (h : DReach s) (word tag : Str) :
    (load (save s)).wordIsTag word tag = s.wordIsTag word tag ∧ (load (save s)).maxLength = s.maxLength ∧
    Dict.keys (load (save s)).pos = Dict.keys s.pos ∧ DReach (load (save s)) := by
  have hinv := h.inv
  have hkeys : Dict.keys (save s).posDict = Dict.keys s.pos := by
    unfold save Dict.keys; simp [List.map_map, Function.comp_def]
  have hwf : (save s).posDict.WF := by unfold Dict.WF; rw [hkeys]; exact hinv.wf
  have hget : ∀ t, Dict.getD (save s).posDict t [] = s.wordsOf t := by
    intro t
    cases hg : Dict.get? (save s).posDict t with
    | none =>
      have : Dict.get? s.pos t = none := by
        rw [Dict.get?_eq_none_iff] at hg ⊢; rw [hkeys] at hg; exact hg
      simp [Dict.getD, hg, State.wordsOf, this]
    | some ws =>
      obtain ⟨e, he, heq⟩ := List.mem_map.1 (Dict.mem_of_get? hg)
      simp only [Prod.mk.injEq] at heq
      rw [Dict.getD, hg, ← heq.2, heq.1]; rfl
  refine ⟨?_, rfl, ?_, .load _ hwf ?_⟩
  · unfold State.wordIsTag load
    rw [fresh_words _ hwf, hget]
  · show (List.map _ _) = _
    unfold load
    dsimp only
    rw [keys_fresh, hkeys]
  · intro e he w hw
    unfold save at he ⊢
    obtain ⟨e', _, rfl⟩ := List.mem_map.1 he
    exact hinv.bound _ w hw

example : ∃ s, create [("Noun".toList, ["아이".toList, "노래".toList]), ("Josa".toList, ["는".toList])] = .ok s ∧ s.maxLength = 2 ∧
    s.getPos "노래".toList = ["Noun".toList] ∧ (addWords s "Noun".toList (.str "이노래 너무".toList) false).1.maxLength = 3 :=
  ⟨_, rfl, by decide +kernel, by decide +kernel, by decide +kernel⟩

end Props
