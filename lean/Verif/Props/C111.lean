import Verif.Props.C110
import Verif.Props.C38
import Verif.Proofs.MaxLR
import Verif.Props.C14_C15
/-!
C111: only the words that occur in the text matter. Two dictionaries (score tables, noun sets, tag dictionaries) that agree on the pieces of a text give
the same result on it, however they differ elsewhere: adding or changing words that do not occur in the text has no effect. For the tokenizers that look
up to the length of the longest word of the dictionary this needs that a longer word in the other dictionary makes no difference.
-/
namespace Props
open Py

/-- the two tables agree on every piece of the text -/
def SameOn {α : Type} (text : Str) (d d' : Dict Str α) : Prop := ∀ w, w <:+: text → Dict.get? d w = Dict.get? d' w

private theorem splitGo_infix (s cur : Str) : ∀ w ∈ splitGo cur s, w <:+: cur ++ s := by
  induction s generalizing cur with
  | nil =>
    intro w hw
    simp only [splitGo] at hw
    split at hw
    · cases hw
    · simp at hw; subst hw; simp
  | cons c s ih =>
    intro w hw
    simp only [splitGo] at hw
    have h0 : ∀ w, w <:+: s → w <:+: cur ++ c :: s := by
      rintro w ⟨x, y, rfl⟩; exact ⟨cur ++ c :: x, y, by simp⟩
    split at hw
    · split at hw
      · exact h0 w (by simpa using ih [] w hw)
      · rcases List.mem_cons.1 hw with rfl | hw
        · exact ⟨[], c :: s, by simp⟩
        · exact h0 w (by simpa using ih [] w hw)
    · have := ih (cur ++ [c]) w hw
      simpa using this

/-- an eojeol is a piece of its text -/
private theorem splitWs_infix {s w : Str} (h : w ∈ splitWs s) : w <:+: s := by simpa using splitGo_infix s [] w h

private theorem slice_infix (t : Str) (a b : Nat) : slice t a b <:+: t :=
  (List.drop_suffix a _).isInfix.trans (List.take_prefix b t).isInfix

private theorem getD_same {α : Type} {t : Str} {d d' : Dict Str α} (h : SameOn t d d') {w : Str} (hw : w <:+: t) (x : α) :
    Dict.getD d w x = Dict.getD d' w x := by unfold Dict.getD; rw [h w hw]

private theorem has_same {α : Type} {t : Str} {d d' : Dict Str α} (h : SameOn t d d') {w : Str} (hw : w <:+: t) :
    Dict.has d w = Dict.has d' w := by show (Dict.get? d w).isSome = _; rw [h w hw]

private theorem SameOn.piece {α : Type} {t u : Str} {d d' : Dict Str α} (h : SameOn t d d') (hu : u <:+: t) : SameOn u d d' :=
  fun w hw => h w (hw.trans hu)

private theorem mapM_same {α β : Type} {f g : α → PyM β} : ∀ {l : List α}, (∀ x ∈ l, f x = g x) → l.mapM f = l.mapM g
  | [], _ => rfl
  | x :: l, h => by
    rw [List.mapM_cons, List.mapM_cons, h x (by simp), mapM_same (l := l) (fun y hy => h y (by simp [hy]))]

private theorem flatMap_same {α β : Type} {f g : α → List β} : ∀ {l : List α}, (∀ x ∈ l, f x = g x) → l.flatMap f = l.flatMap g
  | [], _ => rfl
  | x :: l, h => by
    rw [List.flatMap_cons, List.flatMap_cons, h x (by simp), flatMap_same (l := l) (fun y hy => h y (by simp [hy]))]

private theorem filterMap_same {α β : Type} {f g : α → Option β} : ∀ {l : List α}, (∀ x ∈ l, f x = g x) → l.filterMap f = l.filterMap g
  | [], _ => rfl
  | x :: l, h => by
    rw [List.filterMap_cons, List.filterMap_cons, h x (by simp), filterMap_same (l := l) (fun y hy => h y (by simp [hy]))]

private theorem filter_same {α : Type} {f g : α → Bool} : ∀ {l : List α}, (∀ x ∈ l, f x = g x) → l.filter f = l.filter g
  | [], _ => rfl
  | x :: l, h => by
    rw [List.filter_cons, List.filter_cons, h x (by simp), filter_same (l := l) (fun y hy => h y (by simp [hy]))]

private theorem recursive_same (maxLength : Nat) (ds : Rat) (token : Str) {d d' : Dict Str Rat} (h : SameOn token d d') :
    MaxScore.recursiveTokenize d maxLength ds token = MaxScore.recursiveTokenize d' maxLength ds token := by
  have hc : ∀ rl n, MaxScore.candidates d ds token rl n = MaxScore.candidates d' ds token rl n := by
    intro rl n
    unfold MaxScore.candidates
    refine flatMap_same (fun b _ => filterMap_same (fun r _ => ?_))
    dsimp only
    rw [getD_same h (slice_infix token b (b + r))]
  have hi : ∀ rl n, MaxScore.initCands d ds token rl n = MaxScore.initCands d' ds token rl n := by
    intro rl n; unfold MaxScore.initCands; rw [hc]
  have hf : ∀ x, MaxScore.addFirst d ds token x = MaxScore.addFirst d' ds token x := by
    intro x; unfold MaxScore.addFirst; dsimp only; rw [getD_same h (slice_infix token 0 x.b)]
  have hl : ∀ x, MaxScore.addLast d ds token x = MaxScore.addLast d' ds token x := by
    intro x; unfold MaxScore.addLast; dsimp only; rw [getD_same h (List.drop_suffix x.e token).isInfix]
  unfold MaxScore.recursiveTokenize
  simp only [hi, hf, hl]

private theorem maxscore_same (maxLength : Nat) (ds : Rat) (s : Str) {d d' : Dict Str Rat} (h : SameOn s d d') :
    MaxScore.tokenizeSpans d maxLength ds s = MaxScore.tokenizeSpans d' maxLength ds s := by
  unfold MaxScore.tokenizeSpans
  exact mapM_same (fun w hw => recursive_same maxLength ds w (h.piece (splitWs_infix hw)))

private theorem ltok_same (ds tol : Rat) (token : Str) {d d' : Dict Str Rat} (h : SameOn token d d') :
    LTok.tokenToLr d ds tol token = LTok.tokenToLr d' ds tol token := by
  have hc : ((List.range' 2 (token.length - 1)).map (fun e => (token.take e, token.drop e))).map (fun t => (Dict.getD d t.1 ds, t.1, t.2)) =
      ((List.range' 2 (token.length - 1)).map (fun e => (token.take e, token.drop e))).map (fun t => (Dict.getD d' t.1 ds, t.1, t.2)) := by
    rw [List.map_map, List.map_map]
    refine List.map_congr_left (fun e _ => ?_)
    simp only [Function.comp_def]
    rw [getD_same h (List.take_prefix e token).isInfix]
  unfold LTok.tokenToLr
  dsimp only
  rw [hc]

private theorem strip_word {s w : Str} (h : w ∈ splitWs s) : strip w = w := by
  have hn := splitWs_nospace h
  have l : ∀ v : Str, (∀ c ∈ v, isSpace c = false) → v.dropWhile isSpace = v := by
    intro v hv; cases v with
    | nil => rfl
    | cons c v => simp [hv c (by simp)]
  unfold strip rstrip lstrip
  rw [l w hn, l w.reverse (fun c hc => hn c (List.mem_reverse.1 hc)), List.reverse_reverse]

/-- **C111** The tokenizers that look words up in a table of scores or a set of nouns: tables that agree on the pieces of the sentence give the same result
    (or the same exception), flattened or not. -/
theorem C111_tokenizers (s : Str) (d d' : Dict Str Rat) (h : SameOn s d d') (n n' : Str → Bool) (hn : ∀ w, w <:+: s → n w = n' w) (ds tol : Rat) (maxLength : Nat)
    (compose : Bool) :
    LTok.tokenizePairs d ds tol s = LTok.tokenizePairs d' ds tol s ∧ LTok.tokenize d ds tol s = LTok.tokenize d' ds tol s ∧
    MaxScore.tokenizeSpans d maxLength ds s = MaxScore.tokenizeSpans d' maxLength ds s ∧ MaxScore.tokenize d maxLength ds s = MaxScore.tokenize d' maxLength ds s ∧
    NounTok.tokenizeL n s compose = NounTok.tokenizeL n' s compose ∧
    NounTok.matchSpans d s compose = NounTok.matchSpans d' s compose ∧ NounTok.matchTokenize d s compose = NounTok.matchTokenize d' s compose := by
  have hl : LTok.tokenizePairs d ds tol s = LTok.tokenizePairs d' ds tol s := by
    unfold LTok.tokenizePairs
    exact mapM_same (fun w hw => ltok_same ds tol w (h.piece (splitWs_infix hw)))
  have hs := maxscore_same maxLength ds s h
  have hm : NounTok.matchSpans d s compose = NounTok.matchSpans d' s compose := by
    unfold NounTok.matchSpans
    refine mapM_same (fun w hw => ?_)
    have hw' : w <:+: s := by
      obtain ⟨v, hv, rfl⟩ := List.mem_map.1 (List.mem_filter.1 hw).1
      rw [strip_word hv]
      exact splitWs_infix hv
    unfold NounTok.matchEojeol
    rw [maxscore_same 10 0 w (h.piece hw')]
  refine ⟨hl, ?_, hs, ?_, ?_, hm, ?_⟩
  · unfold LTok.tokenize; rw [hl]
  · unfold MaxScore.tokenize; rw [hs]
  · have : (splitWs s).map (NounTok.maxLengthLTokenize n) = (splitWs s).map (NounTok.maxLengthLTokenize n') := by
      refine List.map_congr_left (fun w hw => ?_)
      have hc : NounTok.lcands n w = NounTok.lcands n' w := by
        unfold NounTok.lcands
        refine flatMap_same (fun b _ => filterMap_same (fun e _ => ?_))
        dsimp only
        rw [hn _ ((slice_infix w b e).trans (splitWs_infix hw))]
      unfold NounTok.maxLengthLTokenize
      rw [hc]
    unfold NounTok.tokenizeL
    rw [this]
  · unfold NounTok.matchTokenize; rw [hm]

/-! ### `MaxLRScoreTokenizer` -/

private theorem range_filterMap {β : Type} (f : Nat → Option β) (a : Nat) : ∀ m n : Nat, m ≤ n → (∀ i, a + m ≤ i → i < a + n → f i = none) →
    (List.range' a m).filterMap f = (List.range' a n).filterMap f := by
  intro m n hmn hf
  obtain ⟨k, rfl⟩ := Nat.exists_eq_add_of_le hmn
  rw [← List.range'_append_1, List.filterMap_append]
  have : (List.range' (a + m) k).filterMap f = [] := by
    rw [List.filterMap_eq_nil_iff]
    intro i hi
    rw [List.mem_range'_1] at hi
    exact hf i hi.1 (by omega)
  rw [this, List.append_nil]

private theorem initL_full (g : MaxLR.Config) (t : Str) : MaxLR.initL g t = (List.range t.length).flatMap fun b =>
    (List.range' (b + 1) (t.length - b)).filterMap fun e => if Dict.has g.Dl (slice t b e) then some (slice t b e, b, e, e - b) else none := by
  unfold MaxLR.initL
  refine flatMap_same (fun b hb => range_filterMap _ _ _ _ (by omega) (fun e h1 h2 => ?_))
  rw [List.mem_range] at hb
  refine if_neg (fun hh => ?_)
  have := MaxLR.maxLen_le g.Dl _ hh
  have hlen : (slice t b e).length = e - b := by unfold slice; rw [List.length_drop, List.length_take]; omega
  omega

private theorem initLR_full (g : MaxLR.Config) (t : Str) : MaxLR.initLR g t = (MaxLR.initL g t).flatMap fun (l, b, e, lenL) =>
    (List.range (t.length - e + 1)).filterMap fun lenR =>
      if lenL = 1 ∧ lenR = 0 then none
      else if slice t e (e + lenR) ≠ [] ∧ Dict.has g.Dr (slice t e (e + lenR)) = false then none
        else some ⟨l, slice t e (e + lenR), b, e, e + lenR, lenL, lenR, lenL + lenR, Dict.getD g.Dl l 0, Dict.getD g.Dr (slice t e (e + lenR)) 0, 0⟩ := by
  unfold MaxLR.initLR
  refine flatMap_same (fun x _ => ?_)
  obtain ⟨l, b, e, lenL⟩ := x
  dsimp only
  rw [List.range_eq_range', List.range_eq_range']
  refine range_filterMap _ _ _ _ (by omega) (fun k h1 h2 => ?_)
  have hlen : (slice t e (e + k)).length = k := by unfold slice; rw [List.length_drop, List.length_take]; omega
  by_cases h0 : lenL = 1 ∧ k = 0
  · rw [if_pos h0]
  · rw [if_neg h0]
    refine if_pos ⟨fun hz => ?_, ?_⟩
    · rw [hz] at hlen; simp at hlen; omega
    · cases hh : Dict.has g.Dr (slice t e (e + k))
      · rfl
      · have := MaxLR.maxLen_le g.Dr _ hh
        omega

/-- both configurations have the same thresholds, and dictionaries and preferences that agree on the pieces of the text -/
structure SameConfigOn (text : Str) (g g' : MaxLR.Config) : Prop where
  dl : SameOn text g.Dl g'.Dl
  dr : SameOn text g.Dr g'.Dr
  pl : SameOn text g.Pl g'.Pl
  pr : SameOn text g.Pr g'.Pr
  maxLDiff : g.maxLDiff = g'.maxLDiff
  maxLRatio : g.maxLRatio = g'.maxLRatio
  ensL : g.ensL = g'.ensL
  ensLRDiff : g.ensLRDiff = g'.ensLRDiff

private theorem initCands_same {t : Str} {g g' : MaxLR.Config} (h : SameConfigOn t g g') : MaxLR.initCands g t = MaxLR.initCands g' t := by
  have h1 : MaxLR.initL g t = MaxLR.initL g' t := by
    rw [initL_full, initL_full]
    refine flatMap_same (fun b _ => filterMap_same (fun e _ => ?_))
    rw [has_same h.dl (slice_infix t b e)]
  unfold MaxLR.initCands
  rw [initLR_full, initLR_full, h1]
  congr 1
  refine flatMap_same (fun x hx => ?_)
  have hl : x.1 <:+: t := by
    obtain ⟨l, b, e, n⟩ := x
    have := ((MaxLR.mem_initL g' t l b e n).1 hx).2.2.1
    dsimp only
    rw [this]; exact slice_infix t b e
  obtain ⟨l, b, e, n⟩ := x
  dsimp only
  refine filterMap_same (fun k _ => ?_)
  rw [has_same h.dr (slice_infix t e (e + k)), getD_same h.dr (slice_infix t e (e + k)), getD_same h.dl hl]

private theorem existLonger_same {t : Str} {g g' : MaxLR.Config} (h : SameConfigOn t g g') (best : MaxLR.Cand) (cs : List MaxLR.Cand) :
    MaxLR.existLonger g best cs = MaxLR.existLonger g' best cs := by
  induction cs with
  | nil => rfl
  | cons c cs ih => unfold MaxLR.existLonger; rw [ih, h.maxLDiff, h.maxLRatio, h.ensL]

private theorem removeGo_same {t : Str} {g g' : MaxLR.Config} (h : SameConfigOn t g g') (cs : List MaxLR.Cand) :
    MaxLR.removeSubsetGo g cs = MaxLR.removeSubsetGo g' cs := by
  induction cs with
  | nil => rfl
  | cons c cs ih => unfold MaxLR.removeSubsetGo; rw [ih, existLonger_same h]

private theorem removeGo_sub (g : MaxLR.Config) (cs out : List MaxLR.Cand) (h : MaxLR.removeSubsetGo g cs = .ok out) : ∀ c ∈ out, c ∈ cs := by
  induction cs generalizing out with
  | nil => simp [MaxLR.removeSubsetGo] at h; subst h; simp
  | cons b cs ih =>
    simp only [MaxLR.removeSubsetGo, bind, Except.bind] at h
    cases h1 : MaxLR.existLonger g b cs with
    | error x => rw [h1] at h; simp at h
    | ok ex =>
      rw [h1] at h
      cases h2 : MaxLR.removeSubsetGo g cs with
      | error x => rw [h2] at h; simp at h
      | ok rest =>
        rw [h2] at h
        simp only [Except.ok.injEq] at h
        subst h
        intro c hc
        split at hc
        · exact List.mem_cons_of_mem _ (ih rest h2 c hc)
        · rcases List.mem_cons.1 hc with rfl | hc
          · exact List.mem_cons_self
          · exact List.mem_cons_of_mem _ (ih rest h2 c hc)

/-- the words of the candidate are pieces of the text -/
private def Inside (t : Str) (c : MaxLR.Cand) : Prop := c.l <:+: t ∧ c.r <:+: t

private theorem inside_init (g : MaxLR.Config) (t : Str) : ∀ c ∈ MaxLR.initCands g t, Inside t c := by
  intro c hc
  unfold MaxLR.initCands at hc
  rw [mem_sorted, MaxLR.mem_initLR] at hc
  obtain ⟨s, _, rfl⟩ := hc
  exact ⟨slice_infix _ _ _, slice_infix _ _ _⟩

private theorem overlapped_same {t : Str} {g g' : MaxLR.Config} (h : SameConfigOn t g g') (all scored : List MaxLR.Cand) (ha : ∀ c ∈ all, Inside t c) (c : MaxLR.Cand) :
    MaxLR.overlapped g all scored c = MaxLR.overlapped g' all scored c := by
  unfold MaxLR.overlapped
  have : ∀ b, (all.filter (fun w => w.p0 = b)).any (fun w => decide (g.ensL ≤ MaxLR.secondLast scored w) ||
        decide (MaxLR.secondLast scored w + Dict.getD g.Pl w.l 0 - c.sr > g.ensLRDiff)) =
      (all.filter (fun w => w.p0 = b)).any (fun w => decide (g'.ensL ≤ MaxLR.secondLast scored w) ||
        decide (MaxLR.secondLast scored w + Dict.getD g'.Pl w.l 0 - c.sr > g'.ensLRDiff)) := by
    intro b
    rw [Bool.eq_iff_iff, List.any_eq_true, List.any_eq_true]
    refine exists_congr (fun w => and_congr_right (fun hw => ?_))
    rw [h.ensL, h.ensLRDiff, getD_same h.pl (ha w (List.mem_filter.1 hw).1).1]
  simp only [this]

private theorem scoreGo_same {t : Str} {g g' : MaxLR.Config} (h : SameConfigOn t g g') (all : List MaxLR.Cand) (ha : ∀ c ∈ all, Inside t c) (cs : List MaxLR.Cand) :
    ∀ scored, (∀ c ∈ cs, Inside t c) → MaxLR.scoreGo g all scored cs = MaxLR.scoreGo g' all scored cs := by
  induction cs with
  | nil => intro _ _; rfl
  | cons c cs ih =>
    intro scored hc
    unfold MaxLR.scoreGo
    have h1 := hc c (by simp)
    rw [overlapped_same h all scored ha c, getD_same h.pl h1.1, getD_same h.pr h1.2]
    dsimp only
    rw [ih _ (fun x hx => hc x (by simp [hx])), ih _ (fun x hx => hc x (by simp [hx]))]

private theorem mapM_origin {α β : Type} {f : α → PyM β} : ∀ {l : List α} {out : List β}, l.mapM f = .ok out → ∀ y ∈ out, ∃ x ∈ l, f x = .ok y
  | [], out, h, y, hy => by simp [pure, Except.pure] at h; rw [h] at hy; cases hy
  | x :: l, out, h, y, hy => by
    rw [List.mapM_cons] at h
    cases hx : f x with
    | error e => rw [hx] at h; cases h
    | ok a =>
      cases hl : l.mapM f with
      | error e => rw [hx, hl] at h; cases h
      | ok b =>
        rw [hx, hl] at h
        simp only [bind, Except.bind, pure, Except.pure, Except.ok.injEq] at h
        rw [← h] at hy
        rcases List.mem_cons.1 hy with rfl | hy
        · exact ⟨x, by simp, hx⟩
        · obtain ⟨z, hz, hz'⟩ := mapM_origin hl y hy
          exact ⟨z, by simp [hz], hz'⟩

private theorem tiles_pieces {w : Str} {i j : Nat} {l : List (Str × Nat × Nat)} (h : Spec.Tiles w i j l) : ∀ x ∈ l, x.1 <:+: w := by
  induction h with
  | nil => simp
  | cons h1 h2 h3 _ ih =>
    intro x hx
    rcases List.mem_cons.1 hx with rfl | hx
    · dsimp only; rw [h3]; exact slice_infix _ _ _
    · exact ih x hx

private theorem maxscore_inside {d : Dict Str Rat} {u : Str} {ws : List Str} (h : MaxScore.tokenize d 10 0 u = .ok ws) {w : Str} (hw : w ∈ ws) : w <:+: u := by
  unfold MaxScore.tokenize MaxScore.tokenizeSpans at h
  cases hs : (splitWs u).mapM (MaxScore.recursiveTokenize d 10 0) with
  | error e => rw [hs] at h; cases h
  | ok tss =>
    rw [hs] at h
    simp only [bind, Except.bind, Except.ok.injEq] at h
    rw [← h] at hw
    obtain ⟨ts, hts, hm⟩ := List.mem_flatMap.1 hw
    obtain ⟨tk, htk, rfl⟩ := List.mem_map.1 hm
    obtain ⟨v, hv, hr⟩ := mapM_origin hs ts hts
    obtain ⟨toks, e, htile⟩ := C14_tiles d 10 (by omega) 0 v (splitWs_nonempty hv)
    rw [hr] at e
    cases e
    exact (tiles_pieces htile _ (List.mem_map_of_mem (f := fun t : MaxScore.Tok => (t.word, t.b, t.e)) htk)).trans (splitWs_infix hv)

private theorem baseSub_same {t : Str} {g g' : MaxLR.Config} (h : SameConfigOn t g g') (u : Str) (hu : u <:+: t) (b : Nat) :
    MaxLR.baseSub g u b = MaxLR.baseSub g' u b := by
  unfold MaxLR.baseSub
  have e : MaxScore.tokenize g.Dr 10 0 u = MaxScore.tokenize g'.Dr 10 0 u := by
    unfold MaxScore.tokenize; rw [maxscore_same 10 0 u (h.dr.piece hu)]
  rw [e]
  cases hw : MaxScore.tokenize g'.Dr 10 0 u with
  | error x => rfl
  | ok ws =>
    show List.mapM _ ws = List.mapM _ ws
    refine mapM_same (fun w hwm => ?_)
    have : w <:+: u := maxscore_inside hw hwm
    rw [has_same h.dr (this.trans hu)]

private theorem post_same {t : Str} {g g' : MaxLR.Config} (h : SameConfigOn t g g') (words : List MaxLR.Cand) :
    MaxLR.choosePost g t words = MaxLR.choosePost g' t words := by
  have b := baseSub_same h
  have h1 : MaxLR.firstSub g t words = MaxLR.firstSub g' t words := by
    unfold MaxLR.firstSub
    cases words.head? with
    | none => rfl
    | some w => dsimp only; rw [b _ (slice_infix _ _ _)]
  have h2 : MaxLR.lastSub g t words = MaxLR.lastSub g' t words := by
    unfold MaxLR.lastSub
    cases words.getLast? with
    | none => rfl
    | some w => dsimp only; rw [b _ (List.drop_suffix _ _).isInfix]
  have h3 : MaxLR.interSubs g t words = MaxLR.interSubs g' t words := by
    unfold MaxLR.interSubs
    refine mapM_same (fun p _ => ?_)
    rw [b _ (slice_infix _ _ _)]
  unfold MaxLR.choosePost MaxLR.postprocess
  rw [h1, h2, h3, b t (List.infix_refl t)]

/-- **C111** `MaxLRScoreTokenizer`: the same result (or the same exception) if dictionaries and preferences agree on the pieces of the sentence, with `debug` or
    without, flattened or not - also when the longest words of the dictionaries differ in length. -/
theorem C111_maxlr (s : Str) (g g' : MaxLR.Config) (h : SameConfigOn s g g') (debug flatten : Bool) :
    MaxLR.tokenize g s = MaxLR.tokenize g' s ∧ Calls.maxLR g s debug flatten = Calls.maxLR g' s debug flatten := by
  have piece : ∀ w, w <:+: s → SameConfigOn w g g' := fun w hw =>
    ⟨h.dl.piece hw, h.dr.piece hw, h.pl.piece hw, h.pr.piece hw, h.maxLDiff, h.maxLRatio, h.ensL, h.ensLRDiff⟩
  have core : ∀ w, w <:+: s → MaxLR.removeSubset g (MaxLR.initCands g w) = MaxLR.removeSubset g' (MaxLR.initCands g' w) ∧
      ∀ cs, MaxLR.removeSubset g' (MaxLR.initCands g' w) = .ok cs →
        MaxLR.choosePost g w (MaxLR.findBest (MaxLR.score g cs)) = MaxLR.choosePost g' w (MaxLR.findBest (MaxLR.score g' cs)) := by
    intro w hw
    have hp := piece w hw
    refine ⟨by unfold MaxLR.removeSubset; rw [initCands_same hp, removeGo_same hp], fun cs hcs => ?_⟩
    have hin : ∀ c ∈ cs, Inside w c := fun c hc => inside_init g' w c (mem_sorted.1 (removeGo_sub g' _ cs hcs c hc))
    have : MaxLR.score g cs = MaxLR.score g' cs := by
      unfold MaxLR.score
      exact scoreGo_same hp cs hin _ _ (fun c hc => hin c (mem_sorted.1 hc))
    rw [this, post_same hp]
  constructor
  · unfold MaxLR.tokenize
    have : (splitWs s).mapM (MaxLR.tokenizeEojeol g) = (splitWs s).mapM (MaxLR.tokenizeEojeol g') := by
      refine mapM_same (fun w hw => ?_)
      obtain ⟨c1, c2⟩ := core w (splitWs_infix hw)
      unfold MaxLR.tokenizeEojeol
      rw [c1]
      cases hr : MaxLR.removeSubset g' (MaxLR.initCands g' w) with
      | error x => rfl
      | ok cs => simp only [bind, Except.bind]; rw [c2 cs hr]
    rw [this]
  · unfold Calls.maxLR
    have : ((splitWs s).filter (fun t => t ≠ [])).mapM (fun t => Calls.maxLREojeol g t debug) = ((splitWs s).filter (fun t => t ≠ [])).mapM (fun t => Calls.maxLREojeol g' t debug) := by
      refine mapM_same (fun w hw => ?_)
      obtain ⟨c1, c2⟩ := core w (splitWs_infix (List.mem_filter.1 hw).1)
      unfold Calls.maxLREojeol
      rw [c1]
      cases hr : MaxLR.removeSubset g' (MaxLR.initCands g' w) with
      | error x => rfl
      | ok cs => dsimp only; rw [c2 cs hr]
    rw [this]

/-! ### The taggers -/

/-- the two tag dictionaries have the same tags for every piece of the text -/
def SameTagsOn (text : Str) (d d' : PT.State) : Prop := ∀ w, w <:+: text → d.getPos w = d'.getPos w

private theorem getPos_tag (d : PT.State) (w t : Str) : d.wordIsTag w t = decide (t ∈ d.getPos w) := by
  unfold PT.State.wordIsTag PT.State.getPos
  rw [decide_eq_decide]
  constructor
  · intro h
    have : ∃ r, Dict.get? d.pos t = some r := by
      unfold PT.State.wordsOf at h
      cases hh : Dict.get? d.pos t with
      | none => rw [hh] at h; cases h
      | some r => exact ⟨r, rfl⟩
    obtain ⟨r, hr⟩ := this
    refine List.mem_map.2 ⟨(t, r), List.mem_filter.2 ⟨Dict.mem_of_get? hr, decide_eq_true h⟩, rfl⟩
  · intro h
    obtain ⟨⟨t', r⟩, hm, rfl⟩ := List.mem_map.1 h
    exact of_decide_eq_true (List.mem_filter.1 hm).2

private theorem tag_same {t : Str} {d d' : PT.State} (h : SameTagsOn t d d') {w : Str} (hw : w <:+: t) (tag : Str) :
    d.wordIsTag w tag = d'.wordIsTag w tag := by rw [getPos_tag, getPos_tag, h w hw]

private theorem findWord_same {d d' : PT.State} (tag eojeol : Str) (h : ∀ w, w <:+: eojeol → d.wordIsTag w tag = d'.wordIsTag w tag) (b : Nat) :
    ∀ fuel i, PT.findWord d tag eojeol b i fuel = PT.findWord d' tag eojeol b i fuel
  | 0, _ => rfl
  | fuel + 1, i => by
    unfold PT.findWord
    rw [findWord_same tag eojeol h b fuel (i + 1), h _ (slice_infix _ _ _)]

private theorem decompose_same {d d' : PT.State} (tag eojeol : Str) (h : ∀ w, w <:+: eojeol → d.wordIsTag w tag = d'.wordIsTag w tag) :
    ∀ fuel b words, PT.decomposeGo d tag eojeol fuel b words = PT.decomposeGo d' tag eojeol fuel b words
  | 0, _, _ => rfl
  | fuel + 1, b, words => by
    unfold PT.decomposeGo
    rw [findWord_same tag eojeol h]
    split
    · cases PT.findWord d' tag eojeol b (b + 1) (eojeol.length - b) with
      | none => rfl
      | some i => exact decompose_same tag eojeol h fuel i _
    · rfl

/-- **C111** `EojeolTemplateMatcher`: the same candidates if the two dictionaries give the same tags to every piece of the eojeol. -/
theorem C111_eojeol_matcher (g : PT.EojeolMatcher) (d' : PT.State) (eojeol : Str) (h : SameTagsOn eojeol g.dictionary d') :
    g.generate eojeol = ({ g with dictionary := d' } : PT.EojeolMatcher).generate eojeol := by
  have ht : ∀ tag w, w <:+: eojeol → g.dictionary.wordIsTag w tag = d'.wordIsTag w tag := fun tag w hw => tag_same h hw tag
  have h1 : PT.singles g eojeol = PT.singles { g with dictionary := d' } eojeol := by
    unfold PT.singles; rw [h _ (List.infix_refl _)]
  have h2 : PT.pairs g eojeol = PT.pairs { g with dictionary := d' } eojeol := by
    unfold PT.pairs
    refine flatMap_same (fun b _ => ?_)
    congr 1
    refine filter_same (fun t _ => ?_)
    rw [ht _ _ (List.take_prefix _ _).isInfix, ht _ _ (List.drop_suffix _ _).isInfix]
  unfold PT.EojeolMatcher.generate PT.decomposeCompound
  rw [h1, h2, decompose_same _ _ (ht _), decompose_same _ _ (ht _)]

private theorem range_flatMap {β : Type} (f : Nat → List β) (a : Nat) : ∀ m n : Nat, m ≤ n → (∀ i, a + m ≤ i → i < a + n → f i = []) →
    (List.range' a m).flatMap f = (List.range' a n).flatMap f := by
  intro m n hmn hf
  obtain ⟨k, rfl⟩ := Nat.exists_eq_add_of_le hmn
  rw [← List.range'_append_1, List.flatMap_append]
  have : (List.range' (a + m) k).flatMap f = [] := by
    rw [List.flatMap_eq_nil_iff]
    intro i hi
    rw [List.mem_range'_1] at hi
    exact hf i hi.1 (by omega)
  rw [this, List.append_nil]

private theorem long_untagged {d : PT.State} (hd : DInv d) (w : Str) (hl : d.maxLength < w.length) : d.getPos w = [] ∧ ∀ t, d.wordIsTag w t = false := by
  have h2 : ∀ t, d.wordIsTag w t = false := by
    intro t
    unfold PT.State.wordIsTag
    rw [decide_eq_false_iff_not]
    intro h
    have := hd.bound t w h
    omega
  refine ⟨?_, h2⟩
  cases hp : d.getPos w with
  | nil => rfl
  | cons t l =>
    have := h2 t
    rw [getPos_tag, hp] at this
    simp at this

private theorem slice_len {t : Str} {a b : Nat} (h : b ≤ t.length) : (slice t a b).length = b - a := by
  unfold slice; rw [List.length_drop, List.length_take]; omega

private theorem initializeL_full (g : PT.LRMatcher) (hd : DInv g.dictionary) (ho : g.ord [] = []) (t : Str) :
    PT.initializeL g t = sorted (fun x y => decide (x.2.2.1 ≤ y.2.2.1)) ((List.range t.length).flatMap (fun b =>
      (List.range' (b + 2) (t.length + 1 - (b + 2))).flatMap (fun e => (PT.posL g (slice t b e)).map (fun tag => (slice t b e, tag, b, e))))) := by
  unfold PT.initializeL
  congr 1
  refine flatMap_same (fun b _ => range_flatMap _ _ _ _ (by omega) (fun e h1 h2 => ?_))
  have := slice_len (t := t) (a := b) (b := e) (by omega)
  unfold PT.posL
  rw [(long_untagged hd (slice t b e) (by omega)).1]
  simp [ho]

private theorem expand_full (g : PT.LRMatcher) (hd : DInv g.dictionary) (t : Str) (c : Str × Str × Nat × Nat) :
    PT.expandOne g t c = (List.range' c.2.2.2 (t.length + 1 - c.2.2.2)).flatMap (fun e2 =>
      if slice t c.2.2.2 e2 = [] then [⟨c.1, some c.2.1, [], none, c.2.2.1, c.2.2.2, e2⟩]
      else ((Dict.getD g.templates c.2.1 []).filter (fun rt => g.dictionary.wordIsTag (slice t c.2.2.2 e2) rt)).map
        (fun rt => ⟨c.1, some c.2.1, slice t c.2.2.2 e2, some rt, c.2.2.1, c.2.2.2, e2⟩)) := by
  unfold PT.expandOne
  refine range_flatMap _ _ _ _ (by omega) (fun e h1 h2 => ?_)
  have hl := slice_len (t := t) (a := c.2.2.2) (b := e) (by omega)
  have : slice t c.2.2.2 e ≠ [] := by
    intro h0; rw [h0] at hl; simp at hl; omega
  rw [if_neg this]
  simp [(long_untagged hd (slice t c.2.2.2 e) (by omega)).2]

/-- **C111** `LRTemplateMatcher`: the same candidates if the two dictionaries give the same tags to every piece of the eojeol, whatever their maximal lengths
    are (`ord`, the order in which a set of tags is enumerated, is the same function for both). -/
theorem C111_lr_matcher (g : PT.LRMatcher) (d' : PT.State) (hd : DReach g.dictionary) (hd' : DReach d') (ho : ∀ l, (g.ord l).Perm l) (eojeol : Str)
    (h : SameTagsOn eojeol g.dictionary d') : g.generate eojeol = ({ g with dictionary := d' } : PT.LRMatcher).generate eojeol := by
  have ho' : g.ord [] = [] := List.Perm.eq_nil (ho [])
  have hi : PT.initializeL g eojeol = PT.initializeL { g with dictionary := d' } eojeol := by
    rw [initializeL_full g hd.inv ho', initializeL_full { g with dictionary := d' } hd'.inv ho']
    congr 1
    refine flatMap_same (fun b _ => flatMap_same (fun e _ => ?_))
    unfold PT.posL
    rw [h _ (slice_infix _ _ _)]
  unfold PT.LRMatcher.generate
  rw [hi]
  congr 1
  refine flatMap_same (fun c _ => ?_)
  rw [expand_full g hd.inv, expand_full { g with dictionary := d' } hd'.inv]
  refine flatMap_same (fun e _ => ?_)
  dsimp only
  have : (Dict.getD g.templates c.2.1 []).filter (fun rt => g.dictionary.wordIsTag (slice eojeol c.2.2.2 e) rt) =
      (Dict.getD g.templates c.2.1 []).filter (fun rt => d'.wordIsTag (slice eojeol c.2.2.2 e) rt) :=
    filter_same (fun rt _ => tag_same h (slice_infix _ _ _) rt)
  rw [this]

/-- **C111** In particular: giving a score to a word that does not occur in the sentence changes nothing, however good the score and however long the word. -/
theorem C111_add_word (s w : Str) (hw : ¬ w <:+: s) (x : Rat) (d : Dict Str Rat) (ds tol : Rat) (maxLength : Nat) (compose : Bool) (g : MaxLR.Config) :
    LTok.tokenize (Dict.set d w x) ds tol s = LTok.tokenize d ds tol s ∧ MaxScore.tokenize (Dict.set d w x) maxLength ds s = MaxScore.tokenize d maxLength ds s ∧
    NounTok.matchTokenize (Dict.set d w x) s compose = NounTok.matchTokenize d s compose ∧
    MaxLR.tokenize { g with Dl := Dict.set g.Dl w x } s = MaxLR.tokenize g s ∧ MaxLR.tokenize { g with Dr := Dict.set g.Dr w x } s = MaxLR.tokenize g s := by
  have hs : ∀ d : Dict Str Rat, SameOn s (Dict.set d w x) d := by
    intro d v hv
    have : v ≠ w := fun hvw => hw (hvw ▸ hv)
    rw [Dict.get?_set, if_neg (Ne.symm this)]
  have refl : ∀ d : Dict Str Rat, SameOn s d d := fun _ _ _ => rfl
  obtain ⟨_, h1, _, h2, _, _, h3⟩ := C111_tokenizers s (Dict.set d w x) d (hs d) (fun _ => true) (fun _ => true) (fun _ _ => rfl) ds tol maxLength compose
  exact ⟨h1, h2, h3, (C111_maxlr s { g with Dl := Dict.set g.Dl w x } g ⟨hs _, refl _, refl _, refl _, rfl, rfl, rfl, rfl⟩ false true).1,
    (C111_maxlr s { g with Dr := Dict.set g.Dr w x } g ⟨refl _, hs _, refl _, refl _, rfl, rfl, rfl, rfl⟩ false true).1⟩

/-! ### concrete cases -/

private def t1 : Dict Str Rat := [("나라".toList, 1)]
private def t2 : Dict Str Rat := [("대한민국만세".toList, 9), ("나라".toList, 1), ("나라가".toList, 5)]
private theorem piece_slice {w t : Str} (h : w <:+: t) : ∃ a < t.length + 1, ∃ b < t.length + 1, w = slice t a b := by
  obtain ⟨x, y, rfl⟩ := h
  exact ⟨x.length, by simp only [List.length_append]; omega, x.length + w.length, by simp only [List.length_append]; omega, by
    unfold slice
    rw [List.append_assoc, List.take_length_add_append, List.drop_left', List.take_left']
    · rfl
    · rfl⟩

/-- two tables that agree on the pieces of a sentence and differ elsewhere -/
example : SameOn "우리나라".toList t1 t2 := by
  intro w hw
  obtain ⟨a, ha, b, hb, rfl⟩ := piece_slice hw
  revert b
  revert a
  decide +kernel
private def pd1 : PT.State := match PT.create [("Noun".toList, ["나라".toList]), ("Josa".toList, ["가".toList])] with | .ok s => s | .error _ => PT.load ⟨0, []⟩
private def pd2 : PT.State := match PT.create [("Noun".toList, ["나라".toList, "대한민국만세".toList]), ("Josa".toList, ["는".toList, "가".toList])] with | .ok s => s | .error _ => PT.load ⟨0, []⟩
/-- two tag dictionaries with different maximal lengths that agree on the pieces of an eojeol -/
example : DReach pd1 ∧ DReach pd2 ∧ pd1.maxLength = 2 ∧ pd2.maxLength = 6 ∧ SameTagsOn "나라가".toList pd1 pd2 := by
  refine ⟨.create [("Noun".toList, ["나라".toList]), ("Josa".toList, ["가".toList])] _ (by decide) rfl,
    .create [("Noun".toList, ["나라".toList, "대한민국만세".toList]), ("Josa".toList, ["는".toList, "가".toList])] _ (by decide) rfl, by decide +kernel, by decide +kernel, ?_⟩
  intro w hw
  obtain ⟨a, ha, b, hb, rfl⟩ := piece_slice hw
  revert b
  revert a
  decide +kernel
example : (({ dictionary := pd2 } : PT.LRMatcher).generate "나라가".toList).length = 2 := by decide +kernel
/-- the word occurs in the text: then a better score does matter -/
example : MaxScore.tokenize t1 10 0 "우리나라".toList = .ok ["우리".toList, "나라".toList] ∧ MaxScore.tokenize t2 10 0 "우리나라".toList = .ok ["우리".toList, "나라".toList] ∧
    MaxScore.tokenize t2 10 0 "우리나라가".toList = .ok ["우리".toList, "나라가".toList] ∧ MaxScore.tokenize t1 10 0 "우리나라가".toList = .ok ["우리".toList, "나라".toList, "가".toList] := by
  decide +kernel

end Props
