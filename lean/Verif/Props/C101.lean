import Verif.Model.Calls
import Verif.Props.C13
import Verif.Props.C14_C15
import Verif.Props.C16_C17
import Verif.Props.C18_C19
import Verif.Props.C62
/-! C101: calling a tokenizer object, and the options `flatten`, `remove_r` and `debug`. -/
set_option linter.unusedVariables false
set_option linter.unusedSimpArgs false
namespace Props
open Py Spec Calls

private theorem forall₂_mapM {α β : Type} (f : α → PyM β) : ∀ (l : List α) (out : List β), l.mapM f = .ok out ↔ List.Forall₂ (fun a b => f a = .ok b) l out
  | [], out => by
    constructor
    · intro h; cases h; exact .nil
    · intro h; cases h; rfl
  | a :: l, out => by
    rw [List.mapM_cons]
    constructor
    · intro h
      cases ha : f a with
      | error e => rw [ha] at h; cases h
      | ok b =>
        rw [ha] at h
        cases hl : l.mapM f with
        | error e => rw [hl] at h; cases h
        | ok bs => rw [hl] at h; cases h; exact .cons ha ((forall₂_mapM f l bs).1 hl)
    · intro h
      cases h with
      | cons h1 h2 => rw [h1, (forall₂_mapM f l _).2 h2]; rfl

private theorem mapM_exists {α β : Type} (f : α → PyM β) : ∀ (l : List α), (∀ a ∈ l, ∃ b, f a = .ok b) → ∃ out, l.mapM f = .ok out
  | [], _ => ⟨[], rfl⟩
  | a :: l, h => by
    obtain ⟨b, hb⟩ := h a List.mem_cons_self
    obtain ⟨bs, hbs⟩ := mapM_exists f l (fun x hx => h x (List.mem_cons_of_mem _ hx))
    exact ⟨b :: bs, by rw [List.mapM_cons, hb, hbs]; rfl⟩

private theorem forall₂_imp_mem {α β : Type} {R S : α → β → Prop} : ∀ {l : List α} {m : List β}, (∀ a ∈ l, ∀ b, R a b → S a b) → List.Forall₂ R l m → List.Forall₂ S l m
  | [], _, _, h => by cases h; exact .nil
  | a :: l, _, hi, h => by
    cases h with
    | cons h1 h2 => exact .cons (hi a List.mem_cons_self _ h1) (forall₂_imp_mem (fun x hx => hi x (List.mem_cons_of_mem _ hx)) h2)

/-- C101: `RegexTokenizer`. Calling the object is `tokenize`; `debug` does not change what is returned. Without `flatten` there is one list per eojeol, whose
    tokens spell the eojeol; with it these lists are joined. -/
theorem C101_regex (isDigit : Char → Bool) (s : Str) :
    (∀ debug debug' flatten, regexCall isDigit s debug flatten = regex isDigit s debug' flatten) ∧
    regexCall isDigit s = .flat (RegexTok.tokenize isDigit s) ∧
    ∃ tss, (∀ debug, regex isDigit s debug false = .nested tss) ∧ tss.flatten = RegexTok.tokenize isDigit s ∧
      List.Forall₂ (fun w ts => ts.flatten = w ∧ ∀ t ∈ ts, t ≠ []) (splitWs s) tss := by
  have hflat : (((splitWs s).map (RegexTok.tokenizeOne isDigit)).flatten).filter (fun t => t ≠ []) = RegexTok.tokenize isDigit s := by
    unfold RegexTok.tokenize
    rw [List.flatMap_def]
  refine ⟨fun _ _ _ => rfl, ?_, _, fun _ => rfl, ?_, ?_⟩
  · unfold regexCall regex
    dsimp only
    rw [if_pos rfl, hflat]
  · rw [tokenize_eq, List.flatMap_def]
  · have hw := Py.splitWs_words s
    generalize splitWs s = ws at hw
    induction ws with
    | nil => exact .nil
    | cons w ws ih =>
      refine .cons ?_ (ih (fun x hx => hw x (List.mem_cons_of_mem _ hx)))
      have hww := hw w List.mem_cons_self
      obtain ⟨h1, h2⟩ := C16_regex_lossless isDigit w
      rw [tokenize_eq, (word_self hww).1, List.flatMap_cons, List.flatMap_nil, List.append_nil] at h1 h2
      refine ⟨?_, fun t ht => (h2 t ht).1⟩
      rw [h1, List.filter_eq_self]
      intro c hc
      rw [decide_eq_true_iff, ← isSpace_iff, hww.2 c hc]
      exact fun h => by (cases h)

/-- C101: `LTokenizer`. Calling the object is `tokenize`, by default without tolerance. Without `flatten` the best cuts (C13) are returned as pairs, with it their
    non-empty parts; with `remove_r` only the left parts, whatever `flatten` says. -/
theorem C101_ltok (scores : Dict Str Rat) (ds : Rat) (s : Str) :
    ltokCall scores ds s = ltok scores ds s 0 true false ∧ (∀ tol flatten removeR, ltokCall scores ds s tol flatten removeR = ltok scores ds s tol flatten removeR) ∧
    ∀ tol, ∃ ps : List (Str × Str), List.Forall₂ (fun eojeol p => BestCut scores ds tol eojeol p.1 p.2) (splitWs s) ps ∧
      ltok scores ds s tol false false = .ok (.nested ps) ∧
      ltok scores ds s tol true false = .ok (.flat ((ps.map (fun p => if p.2 = [] then [p.1] else [p.1, p.2])).flatten)) ∧
      ∀ flatten, ltok scores ds s tol flatten true = .ok (.flat (ps.map (·.1))) := by
  refine ⟨rfl, fun _ _ _ => rfl, fun tol => ?_⟩
  obtain ⟨ps, h1, h2⟩ := C13_pairs_lossless scores ds tol s
  obtain ⟨ps', ts, k1, k2, k3, _⟩ := C13_flat_lossless scores ds tol s
  have hps : ps' = ps := by
    clear h1 k2 k3
    revert h2 k1
    generalize splitWs s = ws
    intro h2 k1
    induction ws generalizing ps ps' with
    | nil => cases h2; cases k1; rfl
    | cons w ws ih =>
      cases h2 with
      | cons a1 a2 =>
        cases k1 with
        | cons b1 b2 =>
          obtain ⟨e1, e2⟩ := C13_unique scores ds tol w _ _ _ _ a1 b1
          rw [ih _ _ a2 b2]
          congr 1
          exact (Prod.ext e1 e2).symm
  subst hps
  unfold LTok.tokenizePairs at h1
  refine ⟨ps', h2, ?_, ?_, fun flatten => ?_⟩
  · unfold ltok; rw [h1]; rfl
  · unfold LTok.tokenize LTok.tokenizePairs at k2
    rw [h1] at k2
    unfold ltok
    rw [h1, ← k3]
    dsimp only
    simp only [bind, Except.bind, Except.ok.injEq] at k2
    rw [← k2]; rfl
  · unfold ltok; rw [h1]; rfl

/-- C101: `MaxScoreTokenizer`. Calling the object is `tokenize`. Without `flatten` there is one list of tokens with offsets per eojeol, which covers the eojeol from
    beginning to end; with it the words of these tokens are returned. -/
theorem C101_maxscore (scores : Dict Str Rat) (maxLength : Nat) (hm : 2 ≤ maxLength) (ds : Rat) (s : Str) :
    maxScoreCall scores maxLength ds s = maxScore scores maxLength ds s true ∧
    (∀ flatten, maxScoreCall scores maxLength ds s flatten = maxScore scores maxLength ds s flatten) ∧
    ∃ tss : List (List MaxScore.Tok),
      List.Forall₂ (fun w ts => MaxScore.recursiveTokenize scores maxLength ds w = .ok ts ∧ Tiles w 0 w.length (ts.map (fun t => (t.word, t.b, t.e)))) (splitWs s) tss ∧
      maxScore scores maxLength ds s false = .ok (.nested tss) ∧ maxScore scores maxLength ds s true = .ok (.flat (tss.flatten.map (·.word))) := by
  refine ⟨rfl, fun _ => rfl, ?_⟩
  have hw := Py.splitWs_words s
  obtain ⟨tss, h⟩ := mapM_exists (MaxScore.recursiveTokenize scores maxLength ds) (splitWs s)
    (fun w hx => (C14_tiles scores maxLength hm ds w (hw w hx).1).imp (fun _ h => h.1))
  refine ⟨tss, ?_, ?_, ?_⟩
  · refine forall₂_imp_mem ?_ ((forall₂_mapM _ _ _).1 h)
    intro w hx ts hts
    obtain ⟨ts', h1, h2⟩ := C14_tiles scores maxLength hm ds w (hw w hx).1
    rw [h1] at hts
    cases hts
    exact ⟨h1, h2⟩
  · unfold maxScore; rw [h]; rfl
  · unfold maxScore; rw [h]
    show Except.ok (Out.flat (tss.flatMap (fun t => t.map (·.word)))) = _
    rw [List.flatMap_def, List.map_flatten]

/-- C101: `NounMatchTokenizer` and `NounLMatchTokenizer`. Calling the objects is `tokenize`, by default flattened and with compounding, and never raises. Without
    `flatten` the result of `NounMatchTokenizer` has exactly one list per eojeol (empty if it has no noun); with it the non-empty words of these lists are returned. -/
theorem C101_nouns (scores : Dict Str Rat) (isNoun : Str → Bool) (s : Str) :
    nounMatchCall scores s = nounMatch scores s true true ∧ nounLMatchCall isNoun s = NounTok.tokenizeL isNoun s true ∧
    (∀ flatten compose, nounMatchCall scores s flatten compose = nounMatch scores s flatten compose) ∧
    (∀ compose, nounLMatchCall isNoun s compose = NounTok.tokenizeL isNoun s compose) ∧
    ∀ compose, ∃ tss : List (List MaxScore.Tok), tss.length = (splitWs s).length ∧
      nounMatch scores s false compose = .ok (.nested tss) ∧ nounMatch scores s true compose = .ok (.flat ((tss.flatten.map (·.word)).filter (fun w => w ≠ []))) ∧
      (compose = false → List.Forall₂ (fun w ts => ∃ all, MaxScore.recursiveTokenize scores 10 0 w = .ok all ∧ ts = all.filter (fun t => decide (0 < t.score)))
        (splitWs s) tss) := by
  refine ⟨rfl, rfl, fun _ _ => rfl, fun _ => rfl, fun compose => ?_⟩
  have hw := Py.splitWs_words s
  have hstrip : ((splitWs s).map strip).filter (fun e => e ≠ []) = splitWs s := by
    have : (splitWs s).map strip = splitWs s := by
      rw [List.map_congr_left (fun w hx => (word_self (hw w hx)).2), List.map_id']
    rw [this, List.filter_eq_self]
    intro w hx
    simpa using (hw w hx).1
  have hone : ∀ w ∈ splitWs s, ∃ all, MaxScore.recursiveTokenize scores 10 0 w = .ok all ∧
      NounTok.matchEojeol scores compose w = .ok (if compose then NounTok.concatenate w (all.filter (fun t => decide (0 < t.score))) else all.filter (fun t => decide (0 < t.score))) := by
    intro w hx
    obtain ⟨all, h1, _⟩ := C14_tiles scores 10 (by omega) 0 w (hw w hx).1
    refine ⟨all, h1, ?_⟩
    unfold NounTok.matchEojeol MaxScore.tokenizeSpans
    rw [(word_self (hw w hx)).1, List.mapM_cons, h1]
    rfl
  obtain ⟨tss, h⟩ := mapM_exists (NounTok.matchEojeol scores compose) (splitWs s) (fun w hx => (hone w hx).imp (fun _ h => h.2) |>.elim (fun _ h => ⟨_, h⟩))
  have hs : NounTok.matchSpans scores s compose = .ok tss := by
    unfold NounTok.matchSpans
    rw [hstrip, h]
  have hF := (forall₂_mapM _ _ _).1 h
  refine ⟨tss, hF.length_eq.symm, ?_, ?_, ?_⟩
  · unfold nounMatch; rw [hs]; rfl
  · unfold nounMatch; rw [hs]; rfl
  · intro hc
    subst hc
    refine forall₂_imp_mem ?_ hF
    intro w hx ts hts
    obtain ⟨all, h1, h2⟩ := hone w hx
    rw [h2] at hts
    cases hts
    exact ⟨all, h1, rfl⟩

/-- an entry of the list returned with `debug`: a span chosen from the text (C62) with its scores and its value, or a piece from between, all of whose scores are 0 -/
inductive RawEntry (g : MaxLR.Config) (t : Str) (c : MaxLR.Cand) : Prop
  | chosen (i j k : Nat) (cand : LRSpec.IsCand g t (i, j, k)) (left : c.l = slice t i j) (right : c.r = slice t j k) (at0 : c.p0 = i) (at1 : c.p1 = j) (at2 : c.p2 = k)
      (sl : c.sl = Dict.getD g.Dl (slice t i j) 0) (sr : c.sr = Dict.getD g.Dr (slice t j k) 0) (total : c.total = LRSpec.value g t (i, j, k))
  | piece (left : c.l ≠ []) (right : c.r = []) (unknown : Dict.has g.Dr c.l = false) (at1 : c.p1 = c.p0 + c.l.length) (at2 : c.p2 = c.p1) (sl : c.sl = 0) (sr : c.sr = 0)

private theorem piece_entry (g : MaxLR.Config) (t sub : Str) (b : Nat) (cs : List MaxLR.Cand) (h : MaxLR.baseSub g sub b = .ok cs) :
    ∀ c ∈ cs, RawEntry g t c ∧ c.p0 = b := by
  rw [MaxLR.baseSub_eq] at h
  by_cases hf : MaxLR.fine g sub = true
  · rw [if_pos hf] at h
    cases h
    intro c hc
    unfold MaxLR.gapC at hc
    obtain ⟨w, hw, rfl⟩ := List.mem_map.1 hc
    unfold MaxLR.fine at hf
    rw [List.all_eq_true] at hf
    have := hf w hw
    exact ⟨.piece ((MaxLR.tok_spec g sub).2.1 w hw) rfl (by simpa using this) rfl rfl rfl rfl, rfl⟩
  · rw [if_neg hf] at h; cases h

private theorem raw_entries (g : MaxLR.Config) (t : Str) (hz : ¬ LRSpec.DividesByZero g t) (cs post : List MaxLR.Cand)
    (h1 : MaxLR.removeSubset g (MaxLR.initCands g t) = .ok cs) (h2 : MaxLR.choosePost g t (MaxLR.findBest (MaxLR.score g cs)) = .ok post) :
    ∀ c ∈ post, RawEntry g t c := by
  obtain ⟨ss, k1, k2, k3⟩ := (MaxLR.kept_spec g t).2 hz
  rw [k1] at h1
  cases h1
  obtain ⟨sel, s1, s2, s3⟩ := MaxLR.score_spec g t ss k2 k3
  have hsel : ∀ s ∈ sel, LRSpec.IsCand g t s := fun s hs => ((s3 s).1 hs).1.1
  obtain ⟨ps, p1, p2, p3⟩ := MaxLR.findBest_chosen g t sel s2 (fun s hs => by have := (hsel s hs).h1; have := (hsel s hs).h2; omega)
  rw [s1, p1] at h2
  have hval : ∀ c ∈ ps.map (MaxLR.valued g t), RawEntry g t c := by
    intro c hc
    obtain ⟨s, hs, rfl⟩ := List.mem_map.1 hc
    exact .chosen s.1 s.2.1 s.2.2 (hsel s ((p2 s).1 hs).1) rfl rfl rfl rfl rfl rfl rfl rfl
  unfold MaxLR.choosePost at h2
  by_cases hne : ps.map (MaxLR.valued g t) ≠ []
  · rw [if_pos hne] at h2
    unfold MaxLR.postprocess at h2
    cases hf : MaxLR.firstSub g t (ps.map (MaxLR.valued g t)) with
    | error e => rw [hf] at h2; cases h2
    | ok first =>
      cases hl : MaxLR.lastSub g t (ps.map (MaxLR.valued g t)) with
      | error e => rw [hf, hl] at h2; cases h2
      | ok last =>
        cases hi : MaxLR.interSubs g t (ps.map (MaxLR.valued g t)) with
        | error e => rw [hf, hl, hi] at h2; cases h2
        | ok inter =>
          rw [hf, hl, hi] at h2
          cases h2
          intro c hc
          rw [mem_sorted, List.mem_append, List.mem_append, List.mem_append] at hc
          rcases hc with hc | (hc | hc) | hc
          · exact hval c hc
          · unfold MaxLR.firstSub at hf
            split at hf
            · split at hf
              · exact (piece_entry g t _ _ _ hf c hc).1
              · cases hf; cases hc
            · cases hf; cases hc
          · unfold MaxLR.lastSub at hl
            split at hl
            · split at hl
              · exact (piece_entry g t _ _ _ hl c hc).1
              · cases hl; cases hc
            · cases hl; cases hc
          · unfold MaxLR.interSubs at hi
            rw [forall₂_mapM] at hi
            obtain ⟨x, hx, hcx⟩ := List.mem_flatten.1 hc
            obtain ⟨p, hp, hpx⟩ : ∃ p ∈ (ps.map (MaxLR.valued g t)).zip (ps.map (MaxLR.valued g t)).tail,
                (if p.1.p2 = p.2.p0 then .ok [] else MaxLR.baseSub g (slice t p.1.p2 p.2.p0) p.1.p2 : PyM (List MaxLR.Cand)) = .ok x := by
              clear hc
              generalize (ps.map (MaxLR.valued g t)).zip (ps.map (MaxLR.valued g t)).tail = zs at hi ⊢
              induction hi with
              | nil => cases hx
              | cons h1 h2 ih =>
                rcases List.mem_cons.1 hx with rfl | hx
                · exact ⟨_, List.mem_cons_self, h1⟩
                · obtain ⟨p, hp, hq⟩ := ih hx; exact ⟨p, List.mem_cons_of_mem _ hp, hq⟩
            split at hpx
            · cases hpx; cases hcx
            · exact (piece_entry g t _ _ _ hpx c hcx).1
  · rw [if_neg hne] at h2
    exact fun c hc => (piece_entry g t _ _ _ h2 c hc).1

/-- the words of raw entries, left before right, without the empty ones -/
def rawWords (cs : List MaxLR.Cand) : List (Str × MaxLR.Tag) := (cs.flatMap (fun c => [(c.l, MaxLR.Tag.L), (c.r, MaxLR.Tag.R)])).filter (fun w => w.1 ≠ [])

private theorem eojeol_raw (g : MaxLR.Config) (t : Str) :
    (∀ e, MaxLR.tokenizeEojeol g t = .error e → ∀ debug, maxLREojeol g t debug = .error e) ∧
    (∀ out, MaxLR.tokenizeEojeol g t = .ok out → ∃ rs, (∀ c ∈ rs, RawEntry g t c) ∧ out = rawWords rs ∧
      maxLREojeol g t true = .ok (rs.map Item.raw) ∧ maxLREojeol g t false = .ok (out.map (fun w => Item.word w.1 w.2))) := by
  by_cases hz : LRSpec.DividesByZero g t
  · have := (MaxLR.kept_spec g t).1 hz
    unfold MaxLR.tokenizeEojeol maxLREojeol
    rw [this]
    exact ⟨fun e h debug => by (cases h; rfl), fun out h => by (cases h)⟩
  · have hent := raw_entries g t hz
    unfold MaxLR.tokenizeEojeol maxLREojeol
    cases h1 : MaxLR.removeSubset g (MaxLR.initCands g t) with
    | error e => exact ⟨fun e h debug => by (cases h; rfl), fun out h => by (cases h)⟩
    | ok cs =>
      simp only [bind, Except.bind]
      cases h2 : MaxLR.choosePost g t (MaxLR.findBest (MaxLR.score g cs)) with
      | error e => exact ⟨fun e h debug => by (cases h; rfl), fun out h => by (cases h)⟩
      | ok post =>
        refine ⟨fun e h => by (cases h), fun out h => ?_⟩
        cases h
        exact ⟨post, hent cs post h1 h2, rfl, rfl, rfl⟩

private theorem sent_raw (g : MaxLR.Config) : ∀ ws : List Str,
    (∀ e, ws.mapM (MaxLR.tokenizeEojeol g) = .error e → ∀ debug, ws.mapM (fun t => maxLREojeol g t debug) = .error e) ∧
    (∀ outs, ws.mapM (MaxLR.tokenizeEojeol g) = .ok outs → ∃ rss : List (List MaxLR.Cand), List.Forall₂ (fun w rs => ∀ c ∈ rs, RawEntry g w c) ws rss ∧
      outs = rss.map rawWords ∧ ws.mapM (fun t => maxLREojeol g t true) = .ok (rss.map (fun rs => rs.map Item.raw)) ∧
      ws.mapM (fun t => maxLREojeol g t false) = .ok (outs.map (fun out => out.map (fun w => Item.word w.1 w.2)))) := by
  intro ws
  induction ws with
  | nil => exact ⟨fun e h => by (cases h), fun outs h => by (cases h; exact ⟨[], .nil, rfl, rfl, rfl⟩)⟩
  | cons w ws ih =>
    obtain ⟨h1, h2⟩ := eojeol_raw g w
    simp only [List.mapM_cons]
    cases hw : MaxLR.tokenizeEojeol g w with
    | error e => exact ⟨fun e h debug => by (cases h; rw [h1 _ hw debug]; rfl), fun outs h => by (cases h)⟩
    | ok out =>
      obtain ⟨rs, r1, r2, r3, r4⟩ := h2 out hw
      cases hws : ws.mapM (MaxLR.tokenizeEojeol g) with
      | error e =>
        refine ⟨fun e h debug => ?_, fun outs h => by (cases h)⟩
        cases h
        rw [ih.1 _ hws debug]
        cases debug
        · rw [r4]; rfl
        · rw [r3]; rfl
      | ok outs =>
        refine ⟨fun e h => by (cases h), fun outs' h => ?_⟩
        cases h
        obtain ⟨rss, q1, q2, q3, q4⟩ := ih.2 outs hws
        refine ⟨rs :: rss, .cons r1 q1, by rw [r2, q2]; rfl, ?_, ?_⟩
        · rw [r3, q3]; rfl
        · rw [r4, q4]; rfl

/-- C101: `MaxLRScoreTokenizer`. Calling the object is `tokenize` with `debug` switched on, which makes it return raw entries instead of tagged words: for each eojeol the chosen
    spans and the pieces between, with offsets and scores; their words are the tokens `tokenize` returns. It raises exactly when `tokenize` does. -/
theorem C101_maxlr (g : MaxLR.Config) (s : Str) :
    maxLRCall g s = maxLR g s true true ∧ (∀ debug flatten, maxLRCall g s debug flatten = maxLR g s debug flatten) ∧
    (∀ e, MaxLR.tokenize g s = .error e → ∀ debug flatten, maxLR g s debug flatten = .error e) ∧
    (∀ out, MaxLR.tokenize g s = .ok out → ∃ rss : List (List MaxLR.Cand),
      List.Forall₂ (fun w rs => ∀ c ∈ rs, RawEntry g w c) (splitWs s) rss ∧ out = rawWords rss.flatten ∧
      maxLR g s = .ok (.flat (out.map (fun w => Item.word w.1 w.2))) ∧
      maxLR g s (flatten := false) = .ok (.nested (rss.map (fun rs => (rawWords rs).map (fun w => Item.word w.1 w.2)))) ∧
      maxLR g s true true = .ok (.flat (rss.flatten.map Item.raw)) ∧
      maxLR g s true false = .ok (.nested (rss.map (fun rs => rs.map Item.raw)))) := by
  have hne : (splitWs s).filter (fun t => t ≠ []) = splitWs s := by
    rw [List.filter_eq_self]
    intro w hw
    simpa using (Py.splitWs_words s w hw).1
  obtain ⟨h1, h2⟩ := sent_raw g (splitWs s)
  refine ⟨rfl, fun _ _ => rfl, ?_, ?_⟩
  · intro e h debug flatten
    unfold MaxLR.tokenize at h
    cases hm : (splitWs s).mapM (MaxLR.tokenizeEojeol g) with
    | ok ws => rw [hm] at h; cases h
    | error e' =>
      rw [hm] at h
      cases h
      unfold maxLR
      rw [hne, h1 _ hm debug]
  · intro out h
    unfold MaxLR.tokenize at h
    cases hm : (splitWs s).mapM (MaxLR.tokenizeEojeol g) with
    | error e' => rw [hm] at h; cases h
    | ok ws =>
      rw [hm] at h
      cases h
      obtain ⟨rss, q1, q2, q3, q4⟩ := h2 ws hm
      have hflat : ws.flatten = rawWords rss.flatten := by
        rw [q2]
        clear q1 q3 q2 q4 hm
        induction rss with
        | nil => rfl
        | cons r rss ih =>
          rw [List.map_cons, List.flatten_cons, List.flatten_cons, ih]
          unfold rawWords
          rw [List.flatMap_append, List.filter_append]
      refine ⟨rss, q1, hflat, ?_, ?_, ?_, ?_⟩
      · unfold maxLR; rw [hne, q4]; dsimp only; rw [if_pos rfl, List.map_flatten]
      · unfold maxLR; rw [hne, q4, q2]; dsimp only; rw [List.map_map]; rfl
      · unfold maxLR; rw [hne, q3]; dsimp only; rw [if_pos rfl, List.map_flatten]
      · unfold maxLR; rw [hne, q3]; rfl

/-- C101, finding: the offsets of the pieces are wrong: without a left dictionary every entry of an eojeol is reported to begin at 0, however many pieces come before it. -/
theorem C101_positions_violation (g : MaxLR.Config) (hl : g.Dl = []) (s : Str) (rss : List (List Item))
    (h : maxLR g s true false = .ok (.nested rss)) : ∀ rs ∈ rss, ∀ x ∈ rs, ∃ c, x = Item.raw c ∧ c.p0 = 0 := by
  have hone : ∀ t out, maxLREojeol g t true = .ok out → ∀ x ∈ out, ∃ c, x = Item.raw c ∧ c.p0 = 0 := by
    intro t out ht
    have hi : MaxLR.initCands g t = [] := by
      have : MaxLR.initL g t = [] := by
        unfold MaxLR.initL
        rw [List.flatMap_eq_nil_iff]
        intro b _
        rw [List.filterMap_eq_nil_iff]
        intro e _
        dsimp only
        rw [hl]
        rfl
      unfold MaxLR.initCands MaxLR.initLR
      rw [this]
      rfl
    unfold maxLREojeol at ht
    rw [hi] at ht
    have hr : MaxLR.removeSubset g [] = .ok [] := rfl
    rw [hr] at ht
    have hc : MaxLR.choosePost g t (MaxLR.findBest (MaxLR.score g [])) = MaxLR.baseSub g t 0 := rfl
    dsimp only at ht
    rw [hc] at ht
    cases hb : MaxLR.baseSub g t 0 with
    | error e => rw [hb] at ht; cases ht
    | ok cs =>
      rw [hb] at ht
      cases ht
      intro x hx
      obtain ⟨c, hc, rfl⟩ := List.mem_map.1 hx
      exact ⟨c, rfl, (piece_entry g t _ _ _ hb c hc).2⟩
  unfold maxLR at h
  cases hm : ((splitWs s).filter (fun t => t ≠ [])).mapM (fun t => maxLREojeol g t true) with
  | error e => rw [hm] at h; cases h
  | ok ws =>
    rw [hm] at h
    cases h
    rw [forall₂_mapM] at hm
    generalize (splitWs s).filter (fun t => t ≠ []) = ts at hm
    intro rs hrs x hx
    induction hm with
    | nil => cases hrs
    | cons a1 a2 ih =>
      rcases List.mem_cons.1 hrs with rfl | hrs
      · exact hone _ _ a1 x hx
      · exact ih hrs

/-! ### non-vacuity -/

private def exG : MaxLR.Config := MaxLR.make [("학생".toList, 1)] [("은".toList, 1)] [] [] (3/10) (1/2) (1/2) (3/10)

/-- `tokenizer(sentence)` and `tokenizer.tokenize(sentence)` return different things -/
example : maxLR exG "학생은요".toList = .ok (.flat [.word "학생".toList .L, .word "은".toList .R, .word "은요".toList .L]) ∧
    maxLRCall exG "학생은요".toList = .ok (.flat [.raw ⟨"학생".toList, "은".toList, 0, 2, 3, 2, 1, 3, 1, 1, 2⟩, .raw ⟨"은요".toList, [], 2, 4, 4, 2, 0, 2, 0, 0, 0⟩]) := by
  decide +kernel

/-- two pieces, both said to begin at 0 -/
example : (maxLR (MaxLR.make [] [] [] [] (3/10) (1/2) (1/2) (3/10)) "가나다라마바사아자차카타 간다".toList true false).toOption.map
      (fun o => match o with | .nested rss => rss.map (fun rs => rs.map (fun x => match x with | .raw c => (c.l, c.p0, c.p2) | .word w _ => (w, 0, 0))) | .flat _ => []) =
    some [[("가나다라마바사아자차".toList, 0, 10), ("카타".toList, 0, 2)], [("간다".toList, 0, 2)]] := by decide +kernel

example : regex (fun c => c.isDigit) "ab1 가나".toList false false = .nested [["ab".toList, "1".toList], ["가나".toList]] := by decide +kernel
example : ltok [("학교".toList, 1)] 0 "학교에서 나".toList 0 false false = .ok (.nested [("학교".toList, "에서".toList), ("나".toList, [])]) ∧
    ltok [("학교".toList, 1)] 0 "학교에서 나".toList 0 false true = .ok (.flat ["학교".toList, "나".toList]) := by decide +kernel
example : nounMatch [("학교".toList, 1)] "그런 그의학교에".toList false false = .ok (.nested [[], [⟨"학교".toList, 2, 4, 1, 2⟩]]) := by decide +kernel

end Props
