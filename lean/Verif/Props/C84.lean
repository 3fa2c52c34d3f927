import Verif.Props.C83
/-! C84: what `EojeolPatternTrainer.save` writes, `load` reads back. -/
set_option linter.unusedSimpArgs false
namespace Props
open Py Nested EP

/-! ### specification -/

/-- graphs whose words contain no whitespace, as training makes them; no row is empty -/
structure PatternWritable (g : Nested Str) : Prop where
  wf : WF2 g
  words : ∀ a b n, get2 g a b = some n → (∀ c ∈ a, isSpace c = false) ∧ ∀ c ∈ b, isSpace c = false

/-- the graphs agree -/
def SameGraph (g h : Nested Str) : Prop := ∀ a b, get2 g a b = get2 h a b

/-! ### proofs -/

private abbrev NS (w : Str) : Prop := ∀ c ∈ w, isSpace c = false

private theorem strip_tail {k : Str} (h : NS k) : strip (k ++ [' ']) = k := by
  unfold strip
  have h1 : lstrip (k ++ [' ']) = if k = [] then [] else k ++ [' '] := by
    cases k with
    | nil => rfl
    | cons c k =>
      rw [if_neg (by simp)]
      unfold lstrip
      rw [List.cons_append, List.dropWhile_cons_of_neg (by simp [h c (by simp)])]
  rw [h1]
  split
  · next h => subst h; rfl
  · rw [rstrip_append_space _ _ (by simp)]
    exact rstrip_eq_self (fun c hc => h c (List.mem_of_getLast? hc))

private theorem intStr_chars (z : Int) : ∀ c ∈ intStr z, c = '-' ∨ ∃ d < 10, c = digitChar d := by
  have key : ∀ n, ∀ c ∈ natStr n, ∃ d < 10, c = digitChar d := fun n => (natStrGo_spec (n + 1) n (by omega)).2.1
  intro c hc
  cases z with
  | ofNat n => exact .inr (key n c hc)
  | negSucc n =>
    rcases List.mem_cons.1 hc with h | h
    · exact .inl h
    · exact .inr (key _ c h)

private theorem intStr_no_paren (z : Int) : '(' ∉ intStr z := by
  intro h
  rcases intStr_chars z _ h with h | ⟨d, hd, h⟩
  · exact absurd h (by decide)
  · have : ∀ d < 10, '(' ≠ digitChar d := by decide
    exact this d hd h

private theorem dropWhile_append' {α : Type} {p : α → Bool} (xs ys : List α) (h : ∀ x ∈ xs, p x = true) : (xs ++ ys).dropWhile p = ys.dropWhile p := by
  induction xs with
  | nil => rfl
  | cons x xs ih => rw [List.cons_append, List.dropWhile_cons_of_pos (h x (by simp)), ih (fun y hy => h y (by simp [hy]))]

private theorem loadRow_head (g : Nested Str) (key : Str) (e : Str × Dict Str Int) (h : NS e.1) : loadRow g key (headRow e) = .ok (g, e.1) := by
  have h2 : (headRow e).take 2 = "> ".toList := rfl
  have h3 : headKey (headRow e) = .ok e.1 := by
    unfold headKey
    rw [if_pos (by unfold headRow; simp)]
    have : (headRow e).reverse = (')' :: (intStr (Dict.sumI e.2)).reverse) ++ ('(' :: ' ' :: (e.1.reverse ++ [' ', '>'])) := by
      unfold headRow
      simp
    rw [this, dropWhile_append' _ _ (by
      intro c hc
      rcases List.mem_cons.1 hc with rfl | hc
      · decide
      · rw [decide_eq_true_iff]; rintro rfl; exact intStr_no_paren _ (List.mem_reverse.1 hc)), List.dropWhile_cons_of_neg (by decide)]
    have h5 : (List.drop 1 ('(' :: ' ' :: (e.1.reverse ++ [' ', '>']))).reverse.drop 2 = e.1 ++ [' '] := by simp
    rw [h5, strip_tail h]
  unfold loadRow
  rw [if_pos h2, h3]; rfl

private theorem splitColonGo_spec {k n : Str} (hk : NS k) (hn : NS n) (cur : Str) : splitColonGo cur (k ++ ':' :: ' ' :: n) = [cur ++ k, n] := by
  have tail : ∀ (n cur : Str), NS n → splitColonGo cur n = [cur ++ n] := by
    intro n
    induction n with
    | nil => intro cur _; rfl
    | cons a n ih =>
      intro cur hn
      cases n with
      | nil => rfl
      | cons b n =>
        have hb : b ≠ ' ' := by rintro rfl; exact absurd (hn ' ' (by simp)) (by decide)
        rw [splitColonGo, if_neg (by rintro ⟨_, h⟩; exact hb h), ih _ (fun c hc => hn c (by simp [hc]))]
        simp
  induction k generalizing cur with
  | nil => rw [List.nil_append, splitColonGo, if_pos ⟨rfl, rfl⟩, tail n [] hn]; simp
  | cons a k ih =>
    have hk' : NS k := fun c hc => hk c (by simp [hc])
    cases k with
    | nil =>
      show splitColonGo cur (a :: ':' :: ' ' :: n) = _
      rw [splitColonGo, if_neg (by rintro ⟨_, h⟩; exact absurd h (by decide))]
      have := ih hk' (cur ++ [a])
      rw [List.nil_append] at this
      rw [this]; simp
    | cons b k =>
      have hb : b ≠ ' ' := by rintro rfl; exact absurd (hk ' ' (by simp)) (by decide)
      show splitColonGo cur (a :: b :: (k ++ ':' :: ' ' :: n)) = _
      rw [splitColonGo, if_neg (by rintro ⟨_, h⟩; exact hb h)]
      have := ih hk' (cur ++ [a])
      rw [List.cons_append] at this
      rw [this]; simp

private theorem loadRow_item (g : Nested Str) (key : Str) (e : Str × Int) (h : NS e.1) :
    loadRow g key (itemRow e) = .ok (Dict.set g key (Dict.set (row g key) e.1 e.2), key) := by
  have h2 : (itemRow e).take 2 = "  ".toList := rfl
  have h4 : (itemRow e).take 4 = "  - ".toList := rfl
  have h5 : (itemRow e).drop 4 = e.1 ++ ':' :: ' ' :: intStr e.2 := by unfold itemRow; simp
  unfold loadRow
  rw [h2, if_neg (by decide), if_pos h4, h5]
  unfold splitColon
  rw [splitColonGo_spec h (intStr_word e.2).2]
  simp only [List.nil_append]
  rw [parseInt_intStr]; rfl

/-- the rows of a graph, sorted as they are written -/
private def sortRows (g : Nested Str) : Nested Str := g.map (fun e => (e.1, sorted (fun x y : Str × Int => decide (y.2 ≤ x.2)) e.2))

/-- reading rows one after the other -/
private def readRows (g : Nested Str) (key : Str) : List Str → PyM (Nested Str × Str)
  | [] => .ok (g, key)
  | r :: rs => match loadRow g key r with
    | .error e => .error e
    | .ok (g, key) => readRows g key rs

private theorem readRows_append (rs rs' : List Str) : ∀ (g : Nested Str) (key : Str), readRows g key (rs ++ rs') =
    match readRows g key rs with | .error e => .error e | .ok (g, key) => readRows g key rs' := by
  induction rs with
  | nil => intro g key; rfl
  | cons r rs ih =>
    intro g key
    simp only [List.cons_append, readRows]
    cases loadRow g key r with
    | error e => rfl
    | ok x => exact ih _ _

private theorem set_set {ν : Type} (d : Dict Str ν) (k : Str) (v w : ν) : Dict.set (Dict.set d k v) k w = Dict.set d k w := by
  induction d with
  | nil => simp [Dict.set]
  | cons e d ih =>
    obtain ⟨k', v'⟩ := e
    by_cases h : k' = k
    · simp [Dict.set, h]
    · simp [Dict.set, h, ih]

private theorem readRows_items (key : Str) (items : List (Str × Int)) (hi : ∀ e ∈ items, NS e.1) : ∀ g, items ≠ [] →
    readRows g key (items.map itemRow) = .ok (Dict.set g key (items.foldl (fun d e => Dict.set d e.1 e.2) (row g key)), key) := by
  induction items with
  | nil => intro g h; exact absurd rfl h
  | cons e items ih =>
    intro g _
    rw [List.map_cons, readRows, loadRow_item g key e (hi e (by simp))]
    simp only
    by_cases h : items = []
    · subst h; rfl
    · rw [ih (fun e he => hi e (by simp [he])) _ h, row_set, if_pos rfl, set_set]
      rfl

private theorem set_new {ν : Type} (d : Dict Str ν) (k : Str) (v : ν) (h : k ∉ Dict.keys d) : Dict.set d k v = d ++ [(k, v)] := by
  induction d with
  | nil => rfl
  | cons e d ih =>
    obtain ⟨k', v'⟩ := e
    have h1 : k' ≠ k := by rintro rfl; exact h (by simp)
    have h2 : k ∉ Dict.keys d := fun hm => h (by simp only [Dict.keys, List.map_cons, List.mem_cons]; exact .inr hm)
    simp [Dict.set, h1, ih h2]

private theorem readRows_graph (g : Nested Str) : ∀ (acc : Nested Str) (key : Str), Dict.WF (acc ++ g) → (∀ e ∈ g, Dict.WF e.2 ∧ e.2 ≠ [] ∧ NS e.1 ∧ ∀ x ∈ e.2, NS x.1) →
    ∃ key', readRows acc key (graphRows g) = .ok (acc ++ sortRows g, key') := by
  induction g with
  | nil => intro acc key _ _; exact ⟨key, by simp [graphRows, sortRows, readRows]⟩
  | cons e g ih =>
    intro acc key hw h
    obtain ⟨h1, h2, h3, h4⟩ := h e (by simp)
    have hrows : graphRows (e :: g) = (headRow e :: (sorted (fun x y : Str × Int => decide (y.2 ≤ x.2)) e.2).map itemRow) ++ graphRows g := rfl
    have hnew : e.1 ∉ Dict.keys acc := by
      unfold Dict.WF Dict.keys at hw
      rw [List.map_append, List.nodup_append] at hw
      intro hm
      exact hw.2.2 _ hm e.1 (by simp) rfl
    have hrow : row acc e.1 = [] := by
      unfold row
      rw [(Dict.get?_eq_none_iff acc e.1).2 hnew]; rfl
    have hp := sorted_perm (fun x y : Str × Int => decide (y.2 ≤ x.2)) e.2
    have hb : readRows acc key (headRow e :: (sorted (fun x y : Str × Int => decide (y.2 ≤ x.2)) e.2).map itemRow) =
        .ok (acc ++ [(e.1, sorted (fun x y : Str × Int => decide (y.2 ≤ x.2)) e.2)], e.1) := by
      rw [readRows, loadRow_head _ _ _ h3]
      simp only
      rw [readRows_items e.1 _ (fun x hx => h4 x (hp.mem_iff.1 hx)) acc (fun h0 => h2 (by rw [h0] at hp; exact hp.symm.eq_nil)), hrow,
        Dict.foldl_set_append _ [] (by rw [List.nil_append]; exact ((hp.map _).nodup_iff).2 h1), List.nil_append, set_new _ _ _ hnew]
    obtain ⟨key', hk⟩ := ih (acc ++ [(e.1, sorted (fun x y : Str × Int => decide (y.2 ≤ x.2)) e.2)]) e.1 (by
      unfold Dict.WF Dict.keys at hw ⊢
      simpa using hw) (fun x hx => h x (by simp [hx]))
    refine ⟨key', ?_⟩
    rw [hrows, readRows_append, hb]
    simp only
    rw [hk]
    simp [sortRows]

private theorem writable_rows {g : Nested Str} (h : PatternWritable g) : Dict.WF g ∧ ∀ e ∈ g, Dict.WF e.2 ∧ e.2 ≠ [] ∧ NS e.1 ∧ ∀ x ∈ e.2, NS x.1 := by
  obtain ⟨⟨w1, w2, w3⟩, hw⟩ := h
  refine ⟨w1, fun e he => ?_⟩
  obtain ⟨a, t⟩ := e
  have hm : ∀ x ∈ t, NS a ∧ NS x.1 := by
    rintro ⟨b, n⟩ hx
    refine hw a b n ?_
    unfold get2
    rw [Dict.get?_of_mem w1 he]
    exact Dict.get?_of_mem (w2 a t he) hx
  obtain ⟨x, t', ht⟩ := List.exists_cons_of_ne_nil (w3 a t he)
  exact ⟨w2 a t he, w3 a t he, (hm x (by rw [ht]; simp)).1, fun y hy => (hm y hy).2⟩

private theorem get2_sortRows {g : Nested Str} (h : PatternWritable g) : SameGraph (sortRows g) g := by
  obtain ⟨w1, hr⟩ := writable_rows h
  intro a b
  unfold get2
  have : Dict.get? (sortRows g) a = (Dict.get? g a).map (sorted (fun x y : Str × Int => decide (y.2 ≤ x.2))) := by
    unfold sortRows
    clear h w1 hr
    induction g with
    | nil => rfl
    | cons e g ih =>
      rw [List.map_cons, Dict.get?_cons, ih]
      obtain ⟨k, t⟩ := e
      rw [Dict.get?_cons]
      split <;> rfl
  rw [this]
  cases ht : Dict.get? g a with
  | none => rfl
  | some t =>
    have hw := (hr _ (Dict.mem_of_get? ht)).1
    have hp := sorted_perm (fun x y : Str × Int => decide (y.2 ≤ x.2)) t
    have hw' : Dict.WF (sorted (fun x y : Str × Int => decide (y.2 ≤ x.2)) t) := ((hp.map _).nodup_iff).2 hw
    show Dict.get? (sorted _ t) b = Dict.get? t b
    cases hb : Dict.get? t b with
    | none =>
      rw [Dict.get?_eq_none_iff] at hb ⊢
      intro hm; exact hb ((hp.map _).mem_iff.1 hm)
    | some n => exact Dict.get?_of_mem hw' (hp.mem_iff.2 (Dict.mem_of_get? hb))

private theorem graphRows_sort (g : Nested Str) : graphRows (sortRows g) = graphRows g := by
  unfold graphRows sortRows
  rw [List.flatMap_map]
  congr 1
  funext e
  have hp := sorted_perm (fun x y : Str × Int => decide (y.2 ≤ x.2)) e.2
  have ht : TotalPre (fun x y : Str × Int => decide (y.2 ≤ x.2)) :=
    ⟨fun a b c h1 h2 => by simp only [decide_eq_true_iff] at *; omega, fun a b => by simp only [decide_eq_true_iff]; omega⟩
  have h1 : headRow (e.1, sorted (fun x y : Str × Int => decide (y.2 ≤ x.2)) e.2) = headRow e := by
    unfold headRow
    rw [Dict.sumI_perm hp]
  simp only [h1]
  rw [sorted_of_pairwise (pairwise_sorted ht e.2)]

private theorem row_shape (g : Nested Str) (h : ∀ e ∈ g, Dict.WF e.2 ∧ e.2 ≠ [] ∧ NS e.1 ∧ ∀ x ∈ e.2, NS x.1) :
    ∀ r ∈ graphRows g, ('\n' ∉ r ∧ '\r' ∉ r) ∧ r ≠ [] ∧ r ≠ "# rlgraph".toList := by
  intro r hr
  obtain ⟨e, he, hr⟩ := List.mem_flatMap.1 hr
  obtain ⟨_, _, h3, h4⟩ := h e he
  have nonl : ∀ w : Str, NS w → '\n' ∉ w ∧ '\r' ∉ w := fun w hw => ⟨fun hm => absurd (hw _ hm) (by decide), fun hm => absurd (hw _ hm) (by decide)⟩
  rcases List.mem_cons.1 hr with rfl | hr
  · refine ⟨?_, by unfold headRow; simp, by unfold headRow; simp⟩
    have a := nonl _ h3
    have b := nonl _ (intStr_word (Dict.sumI e.2)).2
    unfold headRow
    simp [a, b]
  · obtain ⟨x, hx, rfl⟩ := List.mem_map.1 hr
    have a := nonl _ (h4 x (mem_sorted.1 hx))
    have b := nonl _ (intStr_word x.2).2
    refine ⟨?_, by unfold itemRow; simp, by unfold itemRow; simp⟩
    unfold itemRow
    simp [a, b]

private theorem loadLeft_rows (rs : List Str) (rest : List Str) (h : ∀ r ∈ rs, r ≠ [] ∧ r ≠ "# rlgraph".toList) : ∀ (g : Nested Str) (key : Str) (x : Nested Str × Str),
    readRows g key rs = .ok x → loadLeft g key (rs.map (· ++ ['\n']) ++ ["\n".toList, "# rlgraph\n".toList] ++ rest) = .ok (x.1, x.2, rest) := by
  induction rs with
  | nil =>
    intro g key x hx
    cases hx
    have e1 : ("\n".toList).dropLast = ([] : Str) := by decide
    have e2 : ("# rlgraph\n".toList).dropLast = "# rlgraph".toList := by decide
    show loadLeft g key ("\n".toList :: "# rlgraph\n".toList :: rest) = _
    simp only [loadLeft]
    rw [e1, if_pos rfl, e2, if_neg (by decide), if_pos rfl]
  | cons r rs ih =>
    intro g key x hx
    simp only [readRows] at hx
    cases hr : loadRow g key r with
    | error e => rw [hr] at hx; cases hx
    | ok y =>
      rw [hr] at hx
      simp only at hx
      obtain ⟨h1, h2⟩ := h r (by simp)
      show loadLeft g key ((r ++ ['\n']) :: (rs.map (· ++ ['\n']) ++ ["\n".toList, "# rlgraph\n".toList] ++ rest)) = _
      rw [loadLeft]
      simp only [List.dropLast_concat]
      rw [if_neg h1, if_neg h2, hr]
      exact ih (fun r hr => h r (by simp [hr])) _ _ _ hx

private theorem loadRight_rows (rs : List Str) (h : ∀ r ∈ rs, r ≠ []) : ∀ (g : Nested Str) (key : Str) (x : Nested Str × Str),
    readRows g key rs = .ok x → loadRight g key (rs.map (· ++ ['\n'])) = .ok x.1 := by
  induction rs with
  | nil => intro g key x hx; cases hx; rfl
  | cons r rs ih =>
    intro g key x hx
    simp only [readRows] at hx
    cases hr : loadRow g key r with
    | error e => rw [hr] at hx; cases hx
    | ok y =>
      rw [hr] at hx
      simp only at hx
      show loadRight g key ((r ++ ['\n']) :: rs.map (· ++ ['\n'])) = _
      rw [loadRight]
      simp only [List.dropLast_concat]
      rw [if_neg (h r (by simp)), hr]
      exact ih (fun r hr => h r (by simp [hr])) _ _ _ hx

private theorem paramRow_split (s : State) : ∃ d, (d = 0 ∨ d = 1) ∧ (splitWs (strip (paramRow s ++ ['\n']))).mapM parseInt = .ok [s.maxLeft, s.maxRight, s.minFrequency, d] := by
  obtain ⟨v, d, hv, hd, he⟩ : ∃ v : Str, ∃ d : Int, v = (if s.verbose then ['1'] else ['0']) ∧ (d = 0 ∨ d = 1) ∧ v = intStr d := by
    cases s.verbose with
    | false => exact ⟨['0'], 0, rfl, .inl rfl, by decide⟩
    | true => exact ⟨['1'], 1, rfl, .inr rfl, by decide⟩
  refine ⟨d, hd, ?_⟩
  have e : paramRow s = join [' '] [intStr s.maxLeft, intStr s.maxRight, intStr s.minFrequency, intStr d] := by
    unfold paramRow
    rw [← hv, he]
    simp [join]
  have hw : Words [intStr s.maxLeft, intStr s.maxRight, intStr s.minFrequency, intStr d] := by
    intro w hw
    simp only [List.mem_cons, List.not_mem_nil, or_false] at hw
    rcases hw with rfl | rfl | rfl | rfl <;> exact intStr_word _
  have h1 : strip (paramRow s ++ ['\n']) = paramRow s := by
    unfold strip
    have hl : lstrip (paramRow s ++ ['\n']) = paramRow s ++ ['\n'] := by
      obtain ⟨c, w, hc⟩ := List.exists_cons_of_ne_nil (intStr_word s.maxLeft).1
      unfold paramRow
      rw [hc]
      unfold lstrip
      simp only [List.cons_append]
      rw [List.dropWhile_cons_of_neg]
      have := (intStr_word s.maxLeft).2 c (by rw [hc]; simp)
      simp [this]
    rw [hl, rstrip_append_space _ _ (by decide)]
    refine rstrip_eq_self (fun c hc => ?_)
    unfold paramRow at hc
    rw [← hv, he] at hc
    obtain ⟨h1, h2⟩ := intStr_word d
    rw [List.getLast?_append, List.getLast?_cons] at hc
    obtain ⟨x, hx⟩ : ∃ x, (intStr d).getLast? = some x := by
      cases hg : (intStr d).getLast? with
      | none => exact absurd (List.getLast?_eq_none_iff.1 hg) h1
      | some x => exact ⟨x, rfl⟩
    rw [hx] at hc
    simp at hc
    subst hc
    exact h2 x (List.mem_of_getLast? hx)
  rw [h1, e, splitWs_join _ hw]
  simp [List.mapM_cons, parseInt_intStr]
  rfl

/-! ### the claims -/

/-- C84 (a): training makes graphs that can be written -/
theorem C84_trained (s s' : State) (sents wl wr : List Str) (h : train s sents wl wr = (s', .ok ())) :
    ∃ lr rl, s'.lrgraph = some lr ∧ s'.rlgraph = some rl ∧ PatternWritable lr ∧ PatternWritable rl := by
  have hd : s.verbose = true → ¬ PatternDivides sents (wl = [] ∨ wr = []) := by
    intro hv hd
    have := (C83_raises s sents wl wr hv hd).1
    rw [h] at this
    cases this
  obtain ⟨WL, WR, lr, rl, e, _, G⟩ := C83_trains s sents wl wr hd
  rw [h] at e
  cases e
  have hw : ∀ a b n, get2 lr a b = some n → (∀ c ∈ a, isSpace c = false) ∧ ∀ c ∈ b, isSpace c = false := by
    intro a b n hn
    obtain ⟨_, _, _, _, e, h1⟩ := (G.counts a b n).1 hn
    have hp : 0 < (wsTokens sents).countP (fun t => decide (t = a ++ b)) := by omega
    rw [List.countP_pos_iff] at hp
    obtain ⟨t, ht, e⟩ := hp
    rw [decide_eq_true_iff] at e
    subst e
    obtain ⟨x, _, hx⟩ := List.mem_flatMap.1 ht
    have := splitWs_nospace hx
    exact ⟨fun c hc => this c (by simp [hc]), fun c hc => this c (by simp [hc])⟩
  exact ⟨lr, rl, rfl, rfl, ⟨G.lrWf, hw⟩, ⟨G.rlWf, fun a b n hn => (hw b a n (by rw [← G.transpose]; exact hn)).symm⟩⟩

/-- C84 (b): saving and loading restores both graphs and the three numbers, keeps the verbosity of the object that loads, takes as words the rows of the graphs, and
    what is loaded, saved once more, gives the same file (up to the verbosity in its first row) -/
theorem C84_roundtrip (s t : State) (lr rl : Nested Str) (h1 : s.lrgraph = some lr) (h2 : s.rlgraph = some rl) (w1 : PatternWritable lr) (w2 : PatternWritable rl) :
    ∃ text lr' rl', save s = (text, .ok ()) ∧
      load t text = ({ s with verbose := t.verbose, lrgraph := some lr', rlgraph := some rl', wordsetL := some (Dict.keys lr'), wordsetR := some (Dict.keys rl') }, .ok ()) ∧
      SameGraph lr' lr ∧ SameGraph rl' rl ∧ Dict.keys lr' = Dict.keys lr ∧ Dict.keys rl' = Dict.keys rl ∧ PatternWritable lr' ∧ PatternWritable rl' ∧
      (t.verbose = s.verbose → save (load t text).1 = (text, .ok ())) := by
  obtain ⟨f1, r1⟩ := writable_rows w1
  obtain ⟨f2, r2⟩ := writable_rows w2
  obtain ⟨k1, e1⟩ := readRows_graph lr [] [] (by rw [List.nil_append]; exact f1) r1
  obtain ⟨k2, e2⟩ := readRows_graph rl [] k1 (by rw [List.nil_append]; exact f2) r2
  rw [List.nil_append] at e1 e2
  obtain ⟨d, _, hp⟩ := paramRow_split s
  have hsave : save s = (written ([paramRow s, "# lrgraph".toList] ++ graphRows lr ++ [[], "# rlgraph".toList] ++ graphRows rl), .ok ()) := by
    unfold save; rw [h1, h2]
  have hlines : fileLines (written ([paramRow s, "# lrgraph".toList] ++ graphRows lr ++ [[], "# rlgraph".toList] ++ graphRows rl)) =
      (paramRow s ++ ['\n']) :: "# lrgraph\n".toList :: ((graphRows lr).map (· ++ ['\n']) ++ ["\n".toList, "# rlgraph\n".toList] ++ (graphRows rl).map (· ++ ['\n'])) := by
    unfold written
    rw [fileLines_written]
    · simp
    · intro r hr
      simp only [List.mem_append, List.mem_cons, List.not_mem_nil, or_false] at hr
      have nonl : ∀ w : Str, NS w → '\n' ∉ w ∧ '\r' ∉ w := fun w hw => ⟨fun hm => absurd (hw _ hm) (by decide), fun hm => absurd (hw _ hm) (by decide)⟩
      rcases hr with ((((rfl | rfl) | hr) | (rfl | rfl)) | hr)
      · have a := nonl _ (intStr_word s.maxLeft).2
        have b := nonl _ (intStr_word s.maxRight).2
        have c := nonl _ (intStr_word s.minFrequency).2
        unfold paramRow
        cases s.verbose <;> simp [a, b, c]
      · decide
      · exact (row_shape lr r1 r hr).1
      · decide
      · decide
      · exact (row_shape rl r2 r hr).1
  have hload : load t (written ([paramRow s, "# lrgraph".toList] ++ graphRows lr ++ [[], "# rlgraph".toList] ++ graphRows rl)) =
      (State.mk s.maxLeft s.maxRight s.minFrequency t.verbose (some (sortRows lr)) (some (sortRows rl)) (some (Dict.keys (sortRows lr))) (some (Dict.keys (sortRows rl))), .ok ()) := by
    unfold load
    rw [hlines]
    simp only
    rw [hp]
    simp only
    rw [if_neg (by rw [show strip "# lrgraph\n".toList = "# lrgraph".toList by decide]; simp),
      loadLeft_rows _ _ (fun r hr => (row_shape lr r1 r hr).2) _ _ _ e1]
    simp only
    rw [loadRight_rows _ (fun r hr => (row_shape rl r2 r hr).2.1) _ _ _ e2]
  have keys : ∀ g, Dict.keys (sortRows g) = Dict.keys g := by
    intro g; unfold sortRows Dict.keys; rw [List.map_map]; rfl
  have wr : ∀ g, PatternWritable g → PatternWritable (sortRows g) := by
    intro g hg
    obtain ⟨f, r⟩ := writable_rows hg
    refine ⟨wf2_of_check ⟨?_, ?_⟩, fun a b n hn => hg.words a b n (by rw [← get2_sortRows hg]; exact hn)⟩
    · unfold Dict.WF; rw [keys]; exact f
    · intro x hx
      obtain ⟨e, he, rfl⟩ := List.mem_map.1 hx
      obtain ⟨a, b, _⟩ := r e he
      have hp := sorted_perm (fun x y : Str × Int => decide (y.2 ≤ x.2)) e.2
      exact ⟨((hp.map _).nodup_iff).2 a, fun h0 => b (by dsimp only at h0; rw [h0] at hp; exact hp.symm.eq_nil)⟩
  refine ⟨_, _, _, hsave, hload, get2_sortRows w1, get2_sortRows w2, keys lr, keys rl, wr lr w1, wr rl w2, ?_⟩
  intro hv
  rw [hload]
  unfold save
  simp only
  rw [graphRows_sort, graphRows_sort]
  have hr : ∀ x : State, x.maxLeft = s.maxLeft → x.maxRight = s.maxRight → x.minFrequency = s.minFrequency → x.verbose = s.verbose → paramRow x = paramRow s := by
    intro x a b c d
    unfold paramRow; rw [a, b, c, d]
  rw [hr (State.mk s.maxLeft s.maxRight s.minFrequency t.verbose (some (sortRows lr)) (some (sortRows rl)) (some (Dict.keys (sortRows lr))) (some (Dict.keys (sortRows rl)))) rfl rfl rfl hv]

/-- C84 (c): saving an untrained object raises, and leaves a file that loads, without complaint, as two empty graphs -/
theorem C84_untrained (s t : State) (h : s.lrgraph = none) : ∃ text, save s = (text, .error .attributeError) ∧
    ∃ t', load t text = (t', .ok ()) ∧ t'.lrgraph = some [] ∧ t'.rlgraph = some [] := by
  obtain ⟨d, _, hp⟩ := paramRow_split s
  refine ⟨_, by unfold save; rw [h], ?_⟩
  have hlines : fileLines (written [paramRow s, "# lrgraph".toList]) = [paramRow s ++ ['\n'], "# lrgraph\n".toList] := by
    unfold written
    rw [fileLines_written]
    · simp
    · intro r hr
      simp only [List.mem_cons, List.not_mem_nil, or_false] at hr
      have nonl : ∀ w : Str, NS w → '\n' ∉ w ∧ '\r' ∉ w := fun w hw => ⟨fun hm => absurd (hw _ hm) (by decide), fun hm => absurd (hw _ hm) (by decide)⟩
      rcases hr with rfl | rfl
      · have a := nonl _ (intStr_word s.maxLeft).2
        have b := nonl _ (intStr_word s.maxRight).2
        have c := nonl _ (intStr_word s.minFrequency).2
        unfold paramRow
        cases s.verbose <;> simp [a, b, c]
      · decide
  unfold load
  rw [hlines]
  simp only
  rw [hp]
  simp only
  rw [if_neg (by rw [show strip "# lrgraph\n".toList = "# lrgraph".toList by decide]; simp)]
  exact ⟨_, rfl, rfl, rfl⟩

/-- the hypotheses are met after training, with words that contain the characters of the file format -/
example : (match train { minFrequency := 1, verbose := false } ["학교에 학교는 (a:) ".toList, "학교에 학교(".toList] with
    | (s, .ok _) => (match load {} (save s).1 with
      | (t, .ok _) => (t.lrgraph.map (fun g => get2 g "(a:".toList ")".toList) == some (some 1)) && (t.rlgraph.map (fun g => get2 g [] "학교(".toList) == some (some 1))
      | _ => false)
    | _ => false) = true := by decide +kernel
private theorem parseInt_error {s : Str} {e : PyErr} (h : parseInt s = .error e) : e = .valueError := by
  unfold parseInt at h
  split at h <;> split at h <;> cases h <;> rfl

private theorem loadRow_error {g : Nested Str} {key line : Str} {e : PyErr} (h : loadRow g key line = .error e) : e = .valueError := by
  unfold loadRow at h
  split at h
  · unfold headKey at h
    split at h <;> cases h
    rfl
  · split at h
    · split at h
      · next k n _ =>
        cases hp : parseInt n with
        | error e' => rw [hp] at h; cases h; exact parseInt_error hp
        | ok v => rw [hp] at h; cases h
      · cases h; rfl
    · cases h

private theorem loadLeft_error {lines : List Str} : ∀ {g : Nested Str} {key : Str} {e : PyErr}, loadLeft g key lines = .error e → e = .valueError := by
  induction lines with
  | nil => intro g key e h; cases h
  | cons l ls ih =>
    intro g key e h
    simp only [loadLeft] at h
    split at h
    · exact ih h
    · split at h
      · cases h
      · cases hr : loadRow g key l.dropLast with
        | error e' => rw [hr] at h; cases h; exact loadRow_error hr
        | ok x => rw [hr] at h; exact ih h

private theorem loadRight_error {lines : List Str} : ∀ {g : Nested Str} {key : Str} {e : PyErr}, loadRight g key lines = .error e → e = .valueError := by
  induction lines with
  | nil => intro g key e h; cases h
  | cons l ls ih =>
    intro g key e h
    simp only [loadRight] at h
    split at h
    · exact ih h
    · cases hr : loadRow g key l.dropLast with
      | error e' => rw [hr] at h; cases h; exact loadRow_error hr
      | ok x => rw [hr] at h; exact ih h

/-- the first row of a file: four integers -/
def ParamLine (line : Str) (a b c d : Int) : Prop := (splitWs (strip line)).mapM parseInt = .ok [a, b, c, d]

/-- C84 (d): any other file: a first line that is not four integers, a second one that is not `# lrgraph`, or a malformed row is a `ValueError`; only a file that
    ends too early is a `StopIteration`. Whatever is raised, the graphs of the trainer stay as they were. -/
theorem C84_malformed (t : State) (text : Str) :
    (∀ e, (load t text).2 = .error e → e = .valueError ∨ e = .stopIteration ∧ (fileLines text = [] ∨ ∃ line a b c d, fileLines text = [line] ∧ ParamLine line a b c d)) ∧
    (∀ e, (load t text).2 = .error e → (load t text).1.lrgraph = t.lrgraph ∧ (load t text).1.rlgraph = t.rlgraph ∧ (load t text).1.verbose = t.verbose) ∧
    (fileLines text = [] ∨ (∃ line a b c d, fileLines text = [line] ∧ ParamLine line a b c d) → (load t text).2 = .error .stopIteration) ∧
    (∀ line lines, fileLines text = line :: lines → ¬ (∃ a b c d, ParamLine line a b c d) → load t text = (t, .error .valueError)) ∧
    (∀ line second lines a b c d, fileLines text = line :: second :: lines → ParamLine line a b c d → strip second ≠ "# lrgraph".toList →
      (load t text).2 = .error .valueError) := by
  unfold ParamLine
  cases hf : fileLines text with
  | nil =>
    have hL : load t text = (t, .error .stopIteration) := by unfold load; rw [hf]
    rw [hL]
    refine ⟨fun e h => .inr ⟨by (cases h; rfl), .inl rfl⟩, fun e h => ⟨rfl, rfl, rfl⟩, fun _ => rfl, fun line lines h => by (cases h), fun line second lines a b c d h => by (cases h)⟩
  | cons first lines =>
    by_cases hp : ∃ a b c d, (splitWs (strip first)).mapM parseInt = .ok [a, b, c, d]
    · obtain ⟨a, b, c, d, hp⟩ := hp
      have h4 : ∀ line lines', first :: lines = line :: lines' → ¬ (∃ a b c d, (splitWs (strip line)).mapM parseInt = .ok [a, b, c, d]) → False := by
        intro line lines' h hn; cases h; exact hn ⟨a, b, c, d, hp⟩
      cases lines with
      | nil =>
        have hL : load t text = ({ t with maxLeft := a, maxRight := b, minFrequency := c }, .error .stopIteration) := by
          unfold load; rw [hf]; simp only [hp]
        rw [hL]
        exact ⟨fun e h => .inr ⟨by (cases h; rfl), .inr ⟨first, a, b, c, d, rfl, hp⟩⟩, fun e h => ⟨rfl, rfl, rfl⟩, fun _ => rfl, fun line lines h hn => (h4 _ _ h hn).elim,
          fun line second lines a b c d h => by (cases h)⟩
      | cons second lines =>
        have h3 : (first :: second :: lines = [] ∨ ∃ line a b c d, first :: second :: lines = [line] ∧ (splitWs (strip line)).mapM parseInt = .ok [a, b, c, d]) → False := by
          rintro (h | ⟨_, _, _, _, _, h, _⟩) <;> cases h
        by_cases h2 : strip second = "# lrgraph".toList
        · cases hl : loadLeft [] [] lines with
          | error e =>
            have hL : load t text = ({ t with maxLeft := a, maxRight := b, minFrequency := c }, .error e) := by
              unfold load; rw [hf]; simp only [hp, h2, hl, ne_eq, not_true_eq_false, if_false]
            rw [hL]
            exact ⟨fun e' h => .inl (by (cases h; exact loadLeft_error hl)), fun e h => ⟨rfl, rfl, rfl⟩, fun h => (h3 h).elim, fun line lines h hn => (h4 _ _ h hn).elim,
              fun line second lines a b c d h _ hn => by (cases h; exact absurd h2 hn)⟩
          | ok x =>
            obtain ⟨lr, key, rest⟩ := x
            cases hr : loadRight [] key rest with
            | error e =>
              have hL : load t text = ({ t with maxLeft := a, maxRight := b, minFrequency := c, wordsetL := some (Dict.keys lr) }, .error e) := by
                unfold load; rw [hf]; simp only [hp, h2, hl, hr, ne_eq, not_true_eq_false, if_false]
              rw [hL]
              exact ⟨fun e' h => .inl (by (cases h; exact loadRight_error hr)), fun e h => ⟨rfl, rfl, rfl⟩, fun h => (h3 h).elim, fun line lines h hn => (h4 _ _ h hn).elim,
                fun line second lines a b c d h _ hn => by (cases h; exact absurd h2 hn)⟩
            | ok rl =>
              have hL : (load t text).2 = .ok () := by
                unfold load; rw [hf]; simp only [hp, h2, hl, hr, ne_eq, not_true_eq_false, if_false]
              rw [hL]
              exact ⟨fun e' h => by (cases h), fun e h => by (cases h), fun h => (h3 h).elim, fun line lines h hn => (h4 _ _ h hn).elim,
                fun line second lines a b c d h _ hn => by (cases h; exact absurd h2 hn)⟩
        · have hL : load t text = ({ t with maxLeft := a, maxRight := b, minFrequency := c }, .error .valueError) := by
            unfold load; rw [hf]; simp only [hp]; rw [if_pos h2]
          rw [hL]
          exact ⟨fun e h => .inl (by (cases h; rfl)), fun e h => ⟨rfl, rfl, rfl⟩, fun h => (h3 h).elim, fun line lines h hn => (h4 _ _ h hn).elim, fun _ _ _ _ _ _ _ _ _ _ => rfl⟩
    · have hL : load t text = (t, .error .valueError) := by
        unfold load; rw [hf]
        simp only
        split
        · next a b c d h => exact absurd ⟨a, b, c, d, h⟩ hp
        · rfl
      rw [hL]
      refine ⟨fun e h => .inl (by (cases h; rfl)), fun e h => ⟨rfl, rfl, rfl⟩, ?_, fun _ _ _ _ => rfl, fun _ _ _ _ _ _ _ _ _ _ => rfl⟩
      rintro (h | ⟨l, a, b, c, d, h, h'⟩)
      · cases h
      · cases h; exact absurd ⟨a, b, c, d, h'⟩ hp

/-- a row the loader cannot read: a head without `(`, or an item that is not one word, one `: ` and an integer -/
def BadRow (row : Str) : Prop :=
  ("> ".toList <+: row ∧ '(' ∉ row) ∨
  ("  - ".toList <+: row ∧ ¬ ∃ (k n : Str) (m : Int), row = "  - ".toList ++ k ++ ": ".toList ++ n ∧ ¬ ": ".toList <:+: k ∧ ¬ ": ".toList <:+: n ∧ parseInt n = .ok m)

private theorem colon_infix_cons (a b : Char) (s : Str) : ": ".toList <:+: (a :: b :: s) ↔ (a = ':' ∧ b = ' ') ∨ ": ".toList <:+: (b :: s) := by
  rw [List.infix_cons_iff]
  refine or_congr ?_ Iff.rfl
  show [':', ' '] <+: _ ↔ _
  rw [List.cons_prefix_cons, List.cons_prefix_cons]
  exact ⟨fun ⟨h1, h2, _⟩ => ⟨h1.symm, h2.symm⟩, fun ⟨h1, h2⟩ => ⟨h1.symm, h2.symm, List.nil_prefix⟩⟩

private theorem splitColonGo_none (s : Str) : ∀ cur, ¬ ": ".toList <:+: s → splitColonGo cur s = [cur ++ s] := by
  induction s with
  | nil => intro cur _; rfl
  | cons a s ih =>
    intro cur h
    cases s with
    | nil => rfl
    | cons b s =>
      rw [colon_infix_cons] at h
      rw [splitColonGo, if_neg (fun k => h (Or.inl k)), ih _ (fun k => h (Or.inr k))]
      simp

private theorem splitColonGo_first (k : Str) (n : Str) : ∀ cur, ¬ ": ".toList <:+: k → splitColonGo cur (k ++ ':' :: ' ' :: n) = (cur ++ k) :: splitColonGo [] n := by
  induction k with
  | nil => intro cur _; simp [splitColonGo]
  | cons a k ih =>
    intro cur h
    cases k with
    | nil =>
      show splitColonGo cur (a :: ':' :: ' ' :: n) = _
      rw [splitColonGo, if_neg (by rintro ⟨_, h⟩; exact absurd h (by decide)), splitColonGo, if_pos ⟨rfl, rfl⟩]
    | cons b k =>
      rw [colon_infix_cons] at h
      show splitColonGo cur (a :: b :: (k ++ ':' :: ' ' :: n)) = _
      rw [splitColonGo, if_neg (fun k => h (Or.inl k))]
      have := ih (cur ++ [a]) (fun k => h (Or.inr k))
      rw [List.cons_append] at this
      rw [this]
      simp

/-- `s.split(': ')` has exactly two pieces iff `: ` occurs exactly once -/
private theorem splitColon_two (s k n : Str) : splitColon s = [k, n] ↔ s = k ++ ": ".toList ++ n ∧ ¬ ": ".toList <:+: k ∧ ¬ ": ".toList <:+: n := by
  have nn : ∀ s cur, splitColonGo cur s ≠ [] := by
    intro s cur
    fun_induction splitColonGo cur s <;> simp_all
  unfold splitColon
  constructor
  · intro h
    by_cases hi : ": ".toList <:+: s
    · obtain ⟨k', n', hs, hk⟩ : ∃ k' n', s = k' ++ ':' :: ' ' :: n' ∧ ¬ ": ".toList <:+: k' := by
        clear h
        induction s with
        | nil => obtain ⟨a, b, h⟩ := hi; simp at h
        | cons a s ih =>
          cases s with
          | nil =>
            rw [List.infix_cons_iff] at hi
            rcases hi with hi | hi
            · exact absurd hi.length_le (by simp)
            · exact absurd hi.length_le (by simp)
          | cons b s =>
            rw [colon_infix_cons] at hi
            by_cases hab : a = ':' ∧ b = ' '
            · exact ⟨[], s, by rw [hab.1, hab.2]; rfl, fun h => absurd h.length_le (by simp)⟩
            · obtain ⟨k', n', h1, h2⟩ := ih (hi.resolve_left hab)
              refine ⟨a :: k', n', by rw [h1]; rfl, ?_⟩
              intro h
              cases k' with
              | nil => exact absurd h.length_le (by simp)
              | cons c k' =>
                rw [colon_infix_cons] at h
                have hc : b = c := by rw [List.cons_append] at h1; exact (List.cons.inj h1).1
                subst hc
                exact h.elim hab h2
      rw [hs, splitColonGo_first _ _ _ hk, List.nil_append] at h
      have h1 : k' = k := (List.cons.inj h).1
      have h2 : splitColonGo [] n' = [n] := (List.cons.inj h).2
      have hn : ¬ ": ".toList <:+: n' := by
        intro hi'
        have : ∀ (m : Str) cur, ": ".toList <:+: m → ∃ x y z, splitColonGo cur m = x :: y :: z := by
          intro m cur
          fun_induction splitColonGo cur m with
          | case1 cur a b s hab ih =>
            intro _
            cases hx : splitColonGo [] s with
            | nil => exact absurd hx (nn _ _)
            | cons y z => exact ⟨_, _, _, rfl⟩
          | case2 cur a b s hab ih =>
            intro hm
            rw [colon_infix_cons] at hm
            exact ih (hm.resolve_left hab)
          | case3 cur s hs =>
            intro hm
            cases s with
            | nil => exact absurd hm.length_le (by simp)
            | cons a s => cases s with
              | nil => exact absurd hm.length_le (by simp)
              | cons b s => exact absurd rfl (hs a b s)
        obtain ⟨x, y, z, hx⟩ := this n' [] hi'
        rw [hx] at h2
        cases h2
      rw [splitColonGo_none _ _ hn, List.nil_append] at h2
      have h2 : n' = n := (List.cons.inj h2).1
      subst h1 h2
      exact ⟨by rw [hs]; simp, hk, hn⟩
    · rw [splitColonGo_none _ _ hi] at h
      cases h
  · rintro ⟨rfl, hk, hn⟩
    have : k ++ ": ".toList ++ n = k ++ ':' :: ' ' :: n := by simp
    rw [this, splitColonGo_first _ _ _ hk, splitColonGo_none _ _ hn]
    rfl

private theorem loadRow_bad (g : Nested Str) (key row : Str) : (∃ e, loadRow g key row = .error e) ↔ BadRow row := by
  have pre : ∀ (p row : Str), row.take p.length = p ↔ p <+: row := fun p row => by rw [List.prefix_iff_eq_take]; exact eq_comm
  have p2 : row.take 2 = "> ".toList ↔ "> ".toList <+: row := pre "> ".toList row
  have p4 : row.take 4 = "  - ".toList ↔ "  - ".toList <+: row := pre "  - ".toList row
  unfold loadRow BadRow
  by_cases h2 : row.take 2 = "> ".toList
  · rw [if_pos h2]
    have hn4 : ¬ "  - ".toList <+: row := by
      intro h
      have h' := p2.1 h2
      cases row with
      | nil => exact absurd h.length_le (by simp)
      | cons a row =>
        have x : ' ' = a := (List.cons_prefix_cons.1 h).1
        have y : '>' = a := (List.cons_prefix_cons.1 h').1
        rw [← x] at y; exact absurd y (by decide)
    unfold headKey
    by_cases hp : '(' ∈ row
    · rw [if_pos hp]
      exact ⟨fun ⟨e, h⟩ => by (cases h), fun h => h.elim (fun h => absurd hp h.2) (fun h => absurd h.1 hn4)⟩
    · rw [if_neg hp]
      exact ⟨fun _ => Or.inl ⟨p2.1 h2, hp⟩, fun _ => ⟨_, rfl⟩⟩
  · rw [if_neg h2]
    have hn2 : ¬ "> ".toList <+: row := fun h => h2 (p2.2 h)
    by_cases h4 : row.take 4 = "  - ".toList
    · rw [if_pos h4]
      have hrow : row = "  - ".toList ++ row.drop 4 := by
        rw [← h4]; exact (List.take_append_drop 4 row).symm
      constructor
      · rintro ⟨e, he⟩
        refine Or.inr ⟨p4.1 h4, ?_⟩
        rintro ⟨k, n, m, h1, hk, hn, hm⟩
        have hd : row.drop 4 = k ++ ": ".toList ++ n := by
          have : "  - ".toList ++ row.drop 4 = "  - ".toList ++ (k ++ ": ".toList ++ n) := by rw [← hrow, h1]; simp
          exact List.append_cancel_left this
        rw [(splitColon_two _ k n).2 ⟨hd, hk, hn⟩] at he
        dsimp only at he
        rw [hm] at he
        cases he
      · rintro (h | ⟨_, h⟩)
        · exact absurd h.1 hn2
        · cases hs : splitColon (row.drop 4) with
          | nil => exact ⟨_, rfl⟩
          | cons k l => cases l with
            | nil => exact ⟨_, rfl⟩
            | cons n l => cases l with
              | cons _ _ => exact ⟨_, rfl⟩
              | nil =>
                dsimp only
                cases hm : parseInt n with
                | error e => exact ⟨e, rfl⟩
                | ok m =>
                  obtain ⟨a, b, c⟩ := (splitColon_two _ k n).1 hs
                  exact absurd ⟨k, n, m, by rw [hrow, a]; simp, b, c, hm⟩ h
    · rw [if_neg h4]
      exact ⟨fun ⟨e, h⟩ => by (cases h), fun h => h.elim (fun h => absurd h.1 hn2) (fun h => absurd (p4.2 h.1) h4)⟩

private theorem bad_nil : ¬ BadRow [] := by
  rintro (h | h)
  · exact absurd h.1.length_le (by simp)
  · exact absurd h.1.length_le (by simp)

private theorem bad_sep : ¬ BadRow "# rlgraph".toList := by
  rintro (⟨h, _⟩ | ⟨h, _⟩) <;> exact absurd h (by decide)

private theorem loadRight_bad (lines : List Str) : ∀ (g : Nested Str) (key : Str), (∃ e, loadRight g key lines = .error e) ↔ ∃ l ∈ lines, BadRow l.dropLast := by
  induction lines with
  | nil => intro g key; exact ⟨fun ⟨e, h⟩ => by (cases h), fun ⟨l, h, _⟩ => by (cases h)⟩
  | cons l ls ih =>
    intro g key
    simp only [loadRight, List.exists_mem_cons_iff]
    split
    · next h => rw [ih, h]; exact ⟨Or.inr, fun h => h.resolve_left bad_nil⟩
    · cases hr : loadRow g key l.dropLast with
      | error e => exact ⟨fun _ => Or.inl ((loadRow_bad g key _).1 ⟨e, hr⟩), fun _ => ⟨e, rfl⟩⟩
      | ok x =>
        rw [ih]
        exact ⟨Or.inr, fun h => h.resolve_left (fun hb => by
          obtain ⟨e, he⟩ := (loadRow_bad g key _).2 hb; rw [hr] at he; cases he)⟩

/-- reading both parts fails iff some row is bad: the separator only decides which graph a row belongs to -/
private theorem load_bad (lines : List Str) : ∀ (g : Nested Str) (key : Str),
    ((∃ e, loadLeft g key lines = .error e) ∨ ∃ lr k rest e, loadLeft g key lines = .ok (lr, k, rest) ∧ loadRight [] k rest = .error e) ↔ ∃ l ∈ lines, BadRow l.dropLast := by
  induction lines with
  | nil =>
    intro g key
    refine ⟨?_, fun ⟨l, h, _⟩ => by (cases h)⟩
    rintro (⟨e, h⟩ | ⟨lr, k, rest, e, h, h'⟩)
    · cases h
    · cases h; cases h'
  | cons l ls ih =>
    intro g key
    simp only [loadLeft, List.exists_mem_cons_iff]
    split
    · next h => rw [ih, h]; exact ⟨Or.inr, fun h => h.resolve_left bad_nil⟩
    · split
      · next h =>
        rw [h]
        constructor
        · rintro (⟨e, h⟩ | ⟨lr, k, rest, e, h, h'⟩)
          · cases h
          · cases h; exact Or.inr ((loadRight_bad _ _ _).1 ⟨e, h'⟩)
        · intro h
          obtain ⟨e, he⟩ := (loadRight_bad ls [] key).2 (h.resolve_left bad_sep)
          exact Or.inr ⟨_, _, _, e, rfl, he⟩
      · cases hr : loadRow g key l.dropLast with
        | error e => exact ⟨fun _ => Or.inl ((loadRow_bad g key _).1 ⟨e, hr⟩), fun _ => Or.inl ⟨e, rfl⟩⟩
        | ok x =>
          obtain ⟨g', k'⟩ := x
          dsimp only
          rw [ih]
          exact ⟨Or.inr, fun h => h.resolve_left (fun hb => by
            obtain ⟨e, he⟩ := (loadRow_bad g key _).2 hb; rw [hr] at he; cases he)⟩

/-- C84 (e): exactly which files load: four integers, `# lrgraph`, and then no bad row (every line is read without its last character, whatever that is). -/
theorem C84_loads_iff (t : State) (text : Str) :
    (load t text).2 = .ok () ↔ ∃ line second lines a b c d, fileLines text = line :: second :: lines ∧ ParamLine line a b c d ∧ strip second = "# lrgraph".toList ∧
      ∀ l ∈ lines, ¬ BadRow l.dropLast := by
  unfold ParamLine
  constructor
  · intro h
    unfold load at h
    cases hf : fileLines text with
    | nil => rw [hf] at h; cases h
    | cons line lines =>
      rw [hf] at h
      dsimp only at h
      split at h
      · next a b c d hp =>
        cases lines with
        | nil => cases h
        | cons second lines =>
          dsimp only at h
          split at h
          · cases h
          · next h2 =>
            refine ⟨line, second, lines, a, b, c, d, rfl, hp, Classical.not_not.1 h2, fun l hl hb => ?_⟩
            rcases (load_bad lines [] []).2 ⟨l, hl, hb⟩ with ⟨e, he⟩ | ⟨lr, k, rest, e, h1, h3⟩
            · rw [he] at h; cases h
            · rw [h1] at h; dsimp only at h; rw [h3] at h; cases h
      · cases h
  · rintro ⟨line, second, lines, a, b, c, d, hf, hp, h2, hb⟩
    have hn := mt (load_bad lines [] []).1 (fun ⟨l, hl, h⟩ => hb l hl h)
    cases hl : loadLeft [] [] lines with
    | error e => exact absurd (Or.inl ⟨e, hl⟩) hn
    | ok x =>
      obtain ⟨lr, k, rest⟩ := x
      cases hr : loadRight [] k rest with
      | error e => exact absurd (Or.inr ⟨lr, k, rest, e, hl, hr⟩) hn
      | ok rl => unfold load; rw [hf]; simp only [hp, h2, hl, hr, ne_eq, not_true_eq_false, if_false]

example : (load {} "10 6 10 1\n# lrgraph\n> 학교 (3\n  - 는 3\n".toList).2 = .error .valueError := by decide +kernel

end Props
