import Verif.Props.C24_C28
/-! C22, C23, C24, C27: loading arbitrary files, `get_uncovered_eojeols`, default `topk`. -/
namespace Props
open Py Nested

/-- the value of the last pair with key `k` -/
def lastOf {α : Type} (xs : List (Str × α)) (k : Str) : Option α := ((xs.filter (fun e => decide (e.1 = k))).getLast?).map (·.2)

private theorem lastOf_cons {α : Type} (x : Str × α) (xs : List (Str × α)) (k : Str) :
    lastOf (x :: xs) k = match lastOf xs k with | some v => some v | none => if x.1 = k then some x.2 else none := by
  unfold lastOf
  rw [List.filter_cons]
  by_cases h : x.1 = k
  · rw [if_pos (by simpa using h), if_pos h]
    cases hl : List.filter (fun e : Str × α => decide (e.1 = k)) xs with
    | nil => rfl
    | cons y ys => rw [List.getLast?_cons_cons]; cases hy : (y :: ys).getLast? with
      | none => simp at hy
      | some z => rfl
  · rw [if_neg (by simpa using h), if_neg h]
    cases ((List.filter (fun e : Str × α => decide (e.1 = k)) xs).getLast?) <;> rfl

private theorem get?_foldl_last {α β : Type} (f : α → β) (xs : List (Str × α)) (d : Dict Str β) (k : Str) :
    Dict.get? (xs.foldl (fun d e => Dict.set d e.1 (f e.2)) d) k =
      match lastOf xs k with | some v => some (f v) | none => Dict.get? d k := by
  induction xs generalizing d with
  | nil => rfl
  | cons x xs ih =>
    rw [List.foldl_cons, ih, lastOf_cons]
    cases lastOf xs k with
    | some v => rfl
    | none => dsimp only; rw [Dict.get?_set]; split <;> rfl

private theorem get?_ofList_last (xs : List (Str × Int)) (k : Str) : Dict.get? (Dict.ofList xs) k = lastOf xs k := by
  unfold Dict.ofList
  rw [get?_foldl_last (fun x => x)]
  cases lastOf xs k <;> rfl

private theorem parseInt_err {c : Str} {e : PyErr} (hc : parseInt c = .error e) : e = .valueError := by
  unfold parseInt at hc
  revert hc
  split <;> split <;> intro hc <;> cases hc <;> rfl

/-! ### C22: loading an arbitrary file -/

/-- a line `word count` read as an entry: exactly two whitespace-separated fields, the second an integer -/
def CountLine (line : Str) (e : Str × Int) : Prop := ∃ c, splitWs line = [e.1, c] ∧ parseInt c = .ok e.2

theorem ec_go {ls : List Str} {es : List (Str × Int)} (h : List.Forall₂ CountLine ls es) (rest : List Str) (d : Dict Str Int) :
    EC.loadGo d (ls ++ rest) = EC.loadGo (es.foldl (fun d e => Dict.set d e.1 e.2) d) rest := by
  induction h generalizing d with
  | nil => rfl
  | @cons l e ls es h _ ih =>
    obtain ⟨c, h1, h2⟩ := h
    rw [List.cons_append, EC.loadGo]
    simp only [EC.loadLine, h1, h2, List.foldl_cons]
    exact ih _

theorem ec_bad {line : Str} (h : ¬ ∃ e, CountLine line e) (d : Dict Str Int) : EC.loadLine d line = .error .valueError := by
  unfold EC.loadLine
  split
  · rename_i w c hw
    cases hc : parseInt c with
    | ok n => exact absurd ⟨(w, n), c, hw, hc⟩ h
    | error e => rw [parseInt_err hc]; rfl
  · rfl

/-- C22: loading any file whose lines all read `word count` succeeds, whatever the object held: the count of a word is
    the one of its last line, a word without a line has count 0, the total is the sum of the counts kept, coverage is 0. -/
theorem C22_load (s : EC.State) (text : Str) (es : List (Str × Int)) (h : List.Forall₂ CountLine (fileLines text) es) :
    ∃ u, EC.load s text = (u, .ok ()) ∧ (∀ e, EC.getitem u e = (lastOf es e).getD 0) ∧ u.counter.WF ∧
      (∀ e, e ∈ Dict.keys u.counter ↔ e ∈ es.map (·.1)) ∧ u.countSum = (u.counter.map (·.2)).sum ∧ u.coverage = 0 := by
  have hg := ec_go h [] []
  rw [List.append_nil] at hg
  refine ⟨⟨Dict.ofList es, Dict.sumI (Dict.ofList es), 0⟩, ?_, ?_, Dict.wf_ofList _, ?_, rfl, rfl⟩
  · unfold EC.load; rw [hg]; rfl
  · intro e; simp only [EC.getitem, Dict.getD, get?_ofList_last]
  · intro e
    rw [← Dict.isSome_get?_iff, get?_ofList_last]
    unfold lastOf
    rw [Option.isSome_map, Option.isSome_iff_ne_none, ne_eq, List.getLast?_eq_none_iff, List.filter_eq_nil_iff]
    simp

/-- C22: otherwise loading raises ValueError at the first line that does not read `word count`; the lines before it stay
    in the object, together with its previous total. -/
theorem C22_load_error (s : EC.State) (text : Str) (pre post : List Str) (bad : Str) (es : List (Str × Int))
    (hl : fileLines text = pre ++ bad :: post) (h : List.Forall₂ CountLine pre es) (hb : ¬ ∃ e, CountLine bad e) :
    ∃ u, EC.load s text = (u, .error .valueError) ∧ (∀ e, EC.getitem u e = (lastOf es e).getD 0) ∧
      u.countSum = s.countSum ∧ u.coverage = 0 := by
  have hg := ec_go h (bad :: post) []
  rw [EC.loadGo, ec_bad hb] at hg
  refine ⟨⟨Dict.ofList es, s.countSum, 0⟩, ?_, ?_, rfl, rfl⟩
  · unfold EC.load; rw [hl, hg]; rfl
  · intro e; simp only [EC.getitem, Dict.getD, get?_ofList_last]

example : List.Forall₂ CountLine (fileLines "가 3\n나 1\n가 -2".toList) [("가".toList, 3), ("나".toList, 1), ("가".toList, -2)] :=
  .cons ⟨"3".toList, by decide +kernel⟩ (.cons ⟨"1".toList, by decide +kernel⟩ (.cons ⟨"-2".toList, by decide +kernel⟩ .nil))
example : (EC.load {} "가 3\n나 1\n가 -2".toList).1.counter = [("가".toList, -2), ("나".toList, 1)] ∧
    (EC.load {} "가 3\n\n나 1".toList).2 = .error .valueError ∧ (EC.load {} "가 3\n\n나 1".toList).1.counter = [("가".toList, 3)] := by
  refine ⟨?_, ?_, ?_⟩ <;> decide +kernel

/-! ### C23 -/

/-- C23: `get_uncovered_eojeols(m)` lists exactly the eojeols left whose count is at least `m`; without an argument it
    lists all that are left when no count is negative. -/
theorem C23_uncovered (s : EC.State) (m : Int) :
    (∀ e c, (e, c) ∈ EC.getUncovered s m ↔ (e, c) ∈ s.counter ∧ m ≤ c) ∧
    ((∀ e c, (e, c) ∈ s.counter → 0 ≤ c) → EC.getUncovered s = s.counter) := by
  constructor
  · intro e c; simp [EC.getUncovered, EC.filterMin]
  · intro h
    unfold EC.getUncovered EC.filterMin
    rw [List.filter_eq_self]
    rintro ⟨e, c⟩ hm
    simpa using h e c hm

example : EC.getUncovered { counter := [("가".toList, 0), ("나".toList, 2)] } 1 = [("나".toList, 2)] ∧
    EC.getUncovered { counter := [("가".toList, 0), ("나".toList, 2)] } = [("가".toList, 0), ("나".toList, 2)] := by decide +kernel

/-! ### C24 -/

/-- C24: without `topk`, `get_r` and `get_l` return the ten most frequent neighbours. -/
theorem C24_default_topk (s : LR.State) (w : Str) :
    LR.getR s w = (LR.getR s w 0).take 10 ∧ LR.getL s w = (LR.getL s w 0).take 10 := ⟨rfl, rfl⟩

example : ∃ s, LR.construct [("가".toList, (List.range 12).map (fun i => ([Char.ofNat (0xAC00 + i)], 100 - (i : Int))))] = .ok s ∧
    (LR.getR s "가".toList).length = 10 ∧ (LR.getR s "가".toList).head? = some ("가".toList, 100) := by
  refine ⟨_, rfl, ?_, ?_⟩ <;> decide +kernel

/-! ### C27: loading an arbitrary file -/

/-- a line `left right count`, or `left count` for the empty right part -/
def GraphLine (line : Str) (l : Str) (rc : Str × Int) : Prop :=
  ∃ c, (splitWs line = [l, c] ∧ rc.1 = [] ∨ splitWs line = [l, rc.1, c]) ∧ parseInt c = .ok rc.2

theorem gline {line l l0 : Str} {rc : Str × Int} {o : Nested Str} {d : Dict Str Int} (h : GraphLine line l rc) :
    LR.loadLine o l0 d line =
      .ok (if l = l0 then (o, l, Dict.set d rc.1 rc.2) else (if d = [] then o else Dict.set o l0 d, l, Dict.set [] rc.1 rc.2)) := by
  obtain ⟨r, n⟩ := rc
  obtain ⟨c, h1, h2⟩ := h
  dsimp only at *
  unfold LR.loadLine
  rcases h1 with ⟨h1, rfl⟩ | h1 <;> rw [h1] <;> by_cases e : l = l0 <;> by_cases hd : d = [] <;> simp [e, h2, hd]

/-- the lines of one block -/
abbrev Block (lines : List Str) (b : Str × List (Str × Int)) : Prop := List.Forall₂ (fun line rc => GraphLine line b.1 rc) lines b.2

private theorem go_same {l : Str} {ls : List Str} {xs : List (Str × Int)} (h : List.Forall₂ (fun line rc => GraphLine line l rc) ls xs)
    (o : Nested Str) (d : Dict Str Int) (rest : List Str) :
    LR.loadGo o l d (ls ++ rest) = LR.loadGo o l (xs.foldl (fun d e => Dict.set d e.1 e.2) d) rest := by
  induction h generalizing d with
  | nil => rfl
  | cons h _ ih =>
    rw [List.cons_append, LR.loadGo, gline h, if_pos rfl]
    exact ih _

private theorem go_block {ls : List Str} {b : Str × List (Str × Int)} (h : Block ls b) (hne : b.2 ≠ []) (o : Nested Str) (l0 : Str)
    (d : Dict Str Int) (hl : b.1 ≠ l0) (rest : List Str) :
    LR.loadGo o l0 d (ls ++ rest) = LR.loadGo (if d = [] then o else Dict.set o l0 d) b.1 (Dict.ofList b.2) rest := by
  obtain ⟨l, xs⟩ := b
  cases h with
  | nil => exact absurd rfl hne
  | @cons line rc ls xs h h' =>
    rw [List.cons_append, LR.loadGo, gline h, if_neg hl]
    exact go_same h' _ _ rest

private theorem ofList_ne {xs : List (Str × Int)} (h : xs ≠ []) : Dict.ofList xs ≠ [] := by
  intro hn
  cases xs with
  | nil => exact h rfl
  | cons x xs =>
    have h1 := get?_ofList_last (x :: xs) x.1
    rw [hn, lastOf_cons] at h1
    cases hl : lastOf xs x.1 with
    | none => rw [hl] at h1; simp [Dict.get?] at h1
    | some v => rw [hl] at h1; simp [Dict.get?] at h1

private theorem go_blocks (bs : List (Str × List (Str × Int))) (hne : ∀ b ∈ bs, b.2 ≠ []) (lss : List (List Str))
    (h : List.Forall₂ Block lss bs) (rest : List Str) (o : Nested Str) (l0 : Str) (d : Dict Str Int)
    (hch : (l0 :: bs.map (·.1)).IsChain (· ≠ ·)) :
    ∃ o' l' d', LR.loadGo o l0 d (lss.flatten ++ rest) = LR.loadGo o' l' d' rest ∧
      (if d' = [] then o' else Dict.set o' l' d') =
        bs.foldl (fun o b => Dict.set o b.1 (Dict.ofList b.2)) (if d = [] then o else Dict.set o l0 d) := by
  induction h generalizing o l0 d with
  | nil => exact ⟨o, l0, d, rfl, rfl⟩
  | @cons ls b lss bs hb _ ih =>
    rw [List.map_cons, List.isChain_cons_cons] at hch
    rw [List.flatten_cons, List.append_assoc, go_block hb (hne b (by simp)) o l0 d (Ne.symm hch.1)]
    obtain ⟨o', l', d', h1, h2⟩ := ih (fun b hb => hne b (by simp [hb])) (if d = [] then o else Dict.set o l0 d) b.1 (Dict.ofList b.2) hch.2
    refine ⟨o', l', d', h1, ?_⟩
    rw [h2, if_neg (ofList_ne (hne b (by simp))), List.foldl_cons]

private theorem left_ne {line l : Str} {rc : Str × Int} (h : GraphLine line l rc) : l ≠ [] := by
  obtain ⟨c, h1 | h1, _⟩ := h
  · exact splitWs_nonempty (s := line) (by rw [h1.1]; simp)
  · exact splitWs_nonempty (s := line) (by rw [h1]; simp)

private theorem chain_nil {bs : List (Str × List (Str × Int))} {lss : List (List Str)} (hne : ∀ b ∈ bs, b.2 ≠ [])
    (h : List.Forall₂ Block lss bs) (hch : (bs.map (·.1)).IsChain (· ≠ ·)) : (([] : Str) :: bs.map (·.1)).IsChain (· ≠ ·) := by
  cases h with
  | nil => simp
  | @cons ls b lss bs hb _ =>
    rw [List.map_cons, List.isChain_cons_cons]
    refine ⟨?_, hch⟩
    have := hne b (by simp)
    cases hx : b.2 with
    | nil => exact absurd hx this
    | cons rc xs =>
      unfold Block at hb
      rw [hx] at hb
      cases hb with
      | cons h _ => exact (left_ne h).symm

/-- C27: loading any file of lines `left right count` / `left count` succeeds, whatever the object held. The file is a
    sequence of non-empty blocks of adjacent lines with the same left part; of several blocks with the same left part
    only the last is kept, and inside a block the last count of a right part. -/
theorem C27_load (t : LR.State) (text : Str) (bs : List (Str × List (Str × Int))) (lss : List (List Str))
    (hl : fileLines text = lss.flatten) (h : List.Forall₂ Block lss bs) (hne : ∀ b ∈ bs, b.2 ≠ [])
    (hch : (bs.map (·.1)).IsChain (· ≠ ·)) (h0 : bs ≠ []) :
    ∃ u, LR.load t text = (u, .ok ()) ∧
      (∀ l r c, (r, c) ∈ LR.getR u l 0 ↔ ∃ b, lastOf bs l = some b ∧ lastOf b r = some c) ∧
      (∀ l r c, (l, c) ∈ LR.getL u r 0 ↔ r ≠ [] ∧ (r, c) ∈ LR.getR u l 0) ∧
      LR.reset u = (u, .ok ()) ∧ u.lMax = t.lMax ∧ u.rMax = t.rMax := by
  obtain ⟨o', l', d', h1, h2⟩ := go_blocks bs hne lss h [] [] [] [] (chain_nil hne h hch)
  rw [if_pos rfl] at h2
  rw [List.append_nil, LR.loadGo, h2] at h1
  obtain ⟨o, ho⟩ : ∃ o, bs.foldl (fun o b => Dict.set o b.1 (Dict.ofList b.2)) ([] : Nested Str) = o := ⟨_, rfl⟩
  rw [ho] at h1
  have hget : ∀ k, Dict.get? o k = (lastOf bs k).map Dict.ofList := by
    intro k
    rw [← ho, get?_foldl_last Dict.ofList]
    cases lastOf bs k <;> rfl
  have hwfo : Dict.WF o := by
    rw [← ho]
    have : ∀ (bs : List (Str × List (Str × Int))) (o : Nested Str), Dict.WF o →
        Dict.WF (bs.foldl (fun o b => Dict.set o b.1 (Dict.ofList b.2)) o) := by
      intro bs
      induction bs with
      | nil => intro o h; exact h
      | cons b bs ih => intro o h; exact ih _ (Dict.WF.set h _ _)
    exact this bs [] Dict.wf_nil
  have hin : ∀ a d, (a, d) ∈ o → ∃ b, lastOf bs a = some b ∧ d = Dict.ofList b := by
    intro a d hm
    have := (Dict.mem_iff_get? hwfo).1 hm
    rw [hget] at this
    obtain ⟨b, hb, rfl⟩ := Option.map_eq_some_iff.1 this
    exact ⟨b, hb, rfl⟩
  have hlast : ∀ a b, lastOf bs a = some b → b ≠ [] := by
    intro a b hb
    unfold lastOf at hb
    obtain ⟨x, hx, rfl⟩ := Option.map_eq_some_iff.1 hb
    exact hne x (List.mem_filter.1 (List.mem_of_getLast? hx)).1
  have hw : WF2 o := ⟨hwfo, fun a d hm => by obtain ⟨b, _, rfl⟩ := hin a d hm; exact Dict.wf_ofList _,
    fun a d hm => by obtain ⟨b, hb, rfl⟩ := hin a d hm; exact ofList_ne (hlast a b hb)⟩
  have hone : o ≠ [] := by
    intro hn
    cases bs with
    | nil => exact h0 rfl
    | cons b bs =>
      have := hget b.1
      rw [hn, lastOf_cons] at this
      cases hl : lastOf bs b.1 with
      | none => rw [hl] at this; simp [Dict.get?] at this
      | some v => rw [hl] at this; simp [Dict.get?] at this
  have hload : LR.load t text = ({ t with lr := o, rl := LR.reverse o, origin := some o }, .ok ()) := by
    unfold LR.load; rw [hl, h1]; dsimp only; rw [LR.checkLrgraph, if_neg hone]
  obtain ⟨rw1, rw2⟩ := LR.reverse_spec hw
  have hgR : ∀ l r c, (r, c) ∈ LR.getR { t with lr := o, rl := LR.reverse o, origin := some o } l 0 ↔ get2 o l r = some c := by
    intro l r c
    show (r, c) ∈ sorted LR.countLe (row o l) ↔ _
    rw [mem_sorted, Dict.mem_iff_get? (hw.row_wf l), get2_eq_row]
  refine ⟨_, hload, ?_, ?_, ?_, rfl, rfl⟩
  · intro l r c
    rw [hgR]
    unfold get2
    rw [hget]
    cases lastOf bs l with
    | none => simp
    | some b => simp [get?_ofList_last]
  · intro l r c
    rw [hgR]
    have : (l, c) ∈ LR.getL { t with lr := o, rl := LR.reverse o, origin := some o } r 0 ↔ get2 (LR.reverse o) r l = some c := by
      show (l, c) ∈ sorted LR.countLe (row (LR.reverse o) r) ↔ _
      rw [mem_sorted, Dict.mem_iff_get? (rw1.row_wf r), get2_eq_row]
    rw [this, rw2]
    by_cases hr : r = [] <;> simp [hr]
  · unfold LR.reset
    dsimp only
    rw [if_neg hone, LR.checkLrgraph, if_neg hone]

private theorem left_same {l : Str} {ls : List Str} {xs : List (Str × Int)} (h : List.Forall₂ (fun line rc => GraphLine line l rc) ls xs)
    (o : Nested Str) (d : Dict Str Int) (rest : List Str) :
    LR.loadLeft o l d (ls ++ rest) = LR.loadLeft o l (xs.foldl (fun d e => Dict.set d e.1 e.2) d) rest := by
  induction h generalizing d with
  | nil => rfl
  | cons h _ ih =>
    rw [List.cons_append, LR.loadLeft, gline h, if_pos rfl]
    exact ih _

private theorem left_block {ls : List Str} {b : Str × List (Str × Int)} (h : Block ls b) (hne : b.2 ≠ []) (o : Nested Str) (l0 : Str)
    (d : Dict Str Int) (hl : b.1 ≠ l0) (rest : List Str) :
    LR.loadLeft o l0 d (ls ++ rest) = LR.loadLeft (if d = [] then o else Dict.set o l0 d) b.1 (Dict.ofList b.2) rest := by
  obtain ⟨l, xs⟩ := b
  cases h with
  | nil => exact absurd rfl hne
  | @cons line rc ls xs h h' =>
    rw [List.cons_append, LR.loadLeft, gline h, if_neg hl]
    exact left_same h' _ _ rest

private theorem left_blocks (bs : List (Str × List (Str × Int))) (hne : ∀ b ∈ bs, b.2 ≠ []) (lss : List (List Str))
    (h : List.Forall₂ Block lss bs) (rest : List Str) (o : Nested Str) (l0 : Str) (d : Dict Str Int)
    (hch : (l0 :: bs.map (·.1)).IsChain (· ≠ ·)) :
    LR.loadLeft o l0 d (lss.flatten ++ rest) = match bs.getLast? with
      | none => LR.loadLeft o l0 d rest
      | some b => LR.loadLeft (bs.dropLast.foldl (fun o b => Dict.set o b.1 (Dict.ofList b.2)) (if d = [] then o else Dict.set o l0 d)) b.1 (Dict.ofList b.2) rest := by
  induction h generalizing o l0 d with
  | nil => rfl
  | @cons ls b lss bs hb _ ih =>
    rw [List.map_cons, List.isChain_cons_cons] at hch
    rw [List.flatten_cons, List.append_assoc, left_block hb (hne b (by simp)) o l0 d (Ne.symm hch.1),
      ih (fun b hb => hne b (by simp [hb])) (if d = [] then o else Dict.set o l0 d) b.1 (Dict.ofList b.2) hch.2]
    cases bs with
    | nil => rfl
    | cons b' bs =>
      rw [List.getLast?_cons_cons, if_neg (ofList_ne (hne b (by simp))), List.dropLast_cons₂, List.foldl_cons]
      cases hg : (b' :: bs).getLast? with
      | none => simp at hg
      | some x => rfl

/-- the blocks that have been stored when a line is found to be bad: a block is stored when a line beginning differently comes -/
def storedBlocks (bs : List (Str × List (Str × Int))) (bad : Str) : List (Str × List (Str × Int)) :=
  match splitWs bad, bs.getLast? with
  | f :: _, some b => if f = b.1 then bs.dropLast else bs
  | _, _ => bs.dropLast

theorem bad_line {bad : Str} (hb : ¬ ∃ l rc, GraphLine bad l rc) (o' : Nested Str) (l' : Str) (d' : Dict Str Int) :
    LR.loadLine o' l' d' bad = .error (if splitWs bad = [] then .indexError else .valueError) := by
  unfold LR.loadLine
  cases hs : splitWs bad with
  | nil => rfl
  | cons f rest =>
    rw [if_neg (List.cons_ne_nil f rest)]
    dsimp only
    match rest, hs with
    | [], _ => rfl
    | [c], hs =>
      dsimp only
      cases hc : parseInt c with
      | ok n => exact absurd ⟨f, ([], n), c, Or.inl ⟨hs, rfl⟩, hc⟩ hb
      | error e => rw [parseInt_err hc]; rfl
    | [r, c], hs =>
      dsimp only
      cases hc : parseInt c with
      | ok n => exact absurd ⟨f, (r, n), c, Or.inr hs, hc⟩ hb
      | error e => rw [parseInt_err hc]; rfl
    | _ :: _ :: _ :: _, _ => rfl

/-- C27: otherwise loading fails at the first line that is not of that form: IndexError for a blank line, ValueError for
    any other. The current graph is left as it was, but not the graph kept for `reset_lrgraph`: that is now made of the blocks read before the bad line, without the one that
    the bad line would have continued (and without the last one if the bad line is blank). So resetting afterwards does not give back what there was before `load`,
    unless no block has been stored. An empty file also raises IndexError. -/
theorem C27_load_error (t : LR.State) (text : Str) :
    (∀ (bs : List (Str × List (Str × Int))) (lss : List (List Str)) (bad : Str) (post : List Str),
      fileLines text = lss.flatten ++ bad :: post → List.Forall₂ Block lss bs → (∀ b ∈ bs, b.2 ≠ []) →
      (bs.map (·.1)).IsChain (· ≠ ·) → (¬ ∃ l rc, GraphLine bad l rc) →
      ∃ u o, LR.load t text = (u, .error (if splitWs bad = [] then .indexError else .valueError)) ∧ u.lr = t.lr ∧ u.rl = t.rl ∧
        u.origin = some o ∧ (∀ l r, get2 o l r = (lastOf (storedBlocks bs bad) l).bind (fun b => lastOf b r)) ∧
        (LR.reset u).1.lr = (if storedBlocks bs bad = [] then t.lr else o)) ∧
    (text = [] → ∃ u, LR.load t text = (u, .error .indexError) ∧ u.lr = t.lr ∧ u.rl = t.rl ∧ LR.reset u = (u, .ok ())) := by
  constructor
  · intro bs lss bad post hl h hne hch hb
    obtain ⟨o', l', d', h1, h2⟩ := go_blocks bs hne lss h (bad :: post) [] [] [] (chain_nil hne h hch)
    have h3 := left_blocks bs hne lss h (bad :: post) [] [] [] (chain_nil hne h hch)
    have h4 : LR.loadLeft [] [] [] (lss.flatten ++ bad :: post) = (storedBlocks bs bad).foldl (fun o b => Dict.set o b.1 (Dict.ofList b.2)) [] := by
      rw [h3]
      unfold storedBlocks
      rcases List.eq_nil_or_concat bs with rfl | ⟨as, b, rfl⟩
      · show LR.loadLeft [] [] [] (bad :: post) = _
        rw [LR.loadLeft, bad_line hb]
        dsimp only
        cases splitWs bad with
        | nil => rfl
        | cons f rest => dsimp only; split <;> rfl
      · rw [List.concat_eq_append, List.getLast?_concat, List.dropLast_concat]
        dsimp only
        rw [LR.loadLeft, bad_line hb, if_pos rfl]
        dsimp only
        have hbn := ofList_ne (hne b (by simp))
        cases splitWs bad with
        | nil => rfl
        | cons f rest =>
          dsimp only
          by_cases hf : f = b.1
          · rw [if_pos hf, if_pos hf]
          · rw [if_neg hf, if_neg hf, if_neg hbn, List.foldl_append]; rfl
    have hload : LR.load t text = ({ t with origin := some ((storedBlocks bs bad).foldl (fun o b => Dict.set o b.1 (Dict.ofList b.2)) []) },
        .error (if splitWs bad = [] then .indexError else .valueError)) := by
      unfold LR.load
      rw [hl, h1, LR.loadGo, bad_line hb]
      dsimp only
      rw [h4]
    generalize storedBlocks bs bad = kept at hload ⊢
    refine ⟨_, _, hload, rfl, rfl, rfl, ?_, ?_⟩
    · intro l r
      unfold get2
      rw [get?_foldl_last Dict.ofList]
      cases lastOf kept l with
      | none => rfl
      | some b => exact get?_ofList_last b r
    · unfold LR.reset
      dsimp only
      cases kept with
      | nil => rfl
      | cons b kept =>
        rw [if_neg (List.cons_ne_nil b kept)]
        have hn : (b :: kept).foldl (fun (o : Nested Str) b => Dict.set o b.1 (Dict.ofList b.2)) [] ≠ [] := by
          intro hn
          have := get?_foldl_last Dict.ofList (b :: kept) [] b.1
          rw [hn, lastOf_cons] at this
          cases hl : lastOf kept b.1 with
          | none => rw [hl] at this; simp [Dict.get?] at this
          | some v => rw [hl] at this; simp [Dict.get?] at this
        rw [if_neg hn, LR.checkLrgraph, if_neg hn]
  · rintro rfl
    exact ⟨{ t with origin := some [] }, rfl, rfl, rfl, rfl⟩

example : List.Forall₂ Block [["가 나 2\n".toList, "가 3\n".toList], ["다 5\n".toList], ["가 라 1\n".toList]]
    [("가".toList, [("나".toList, 2), ([], 3)]), ("다".toList, [([], 5)]), ("가".toList, [("라".toList, 1)])] :=
  .cons (.cons ⟨"2".toList, .inr (by decide +kernel), by decide +kernel⟩ (.cons ⟨"3".toList, .inl (by decide +kernel), by decide +kernel⟩ .nil))
    (.cons (.cons ⟨"5".toList, .inl (by decide +kernel), by decide +kernel⟩ .nil)
      (.cons (.cons ⟨"1".toList, .inr (by decide +kernel), by decide +kernel⟩ .nil) .nil))
example : LR.getR (LR.load {} "가 나 2\n가 3\n다 5\n가 라 1\n".toList).1 "가".toList 0 = [("라".toList, 1)] ∧
    (LR.load {} "가 나 2\n\n".toList).2 = .error .indexError ∧ (LR.load {} "가 나 다 2\n".toList).2 = .error .valueError := by
  refine ⟨?_, ?_, ?_⟩ <;> decide +kernel

end Props
