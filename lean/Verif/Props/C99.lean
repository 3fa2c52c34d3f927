import Verif.Model.Interrupted
import Verif.Props.C30_C32
import Verif.Props.C33
import Verif.Props.C45
import Verif.Proofs.NounV2
/-! C99: a corpus that fails while it is being read. -/
namespace Props
open Py

/-- a corpus that hands out `sents` every time it is read -/
def steady (sents : List Str) : Feed.Corpus := ⟨sents.length, fun _ => ⟨sents, none⟩⟩

/-! ### nothing fails -/

/-- **C99** With a corpus that never fails every trainer does what the other properties say of `train`. -/
theorem C99_steady (sents : List Str) (hne : sents ≠ []) :
    (∀ p s k cum, Feed.wordTrain p s (steady sents) k cum = (match WX.train p s sents k cum with | .ok s' => (s', .ok ()) | .error e => (s, .error e))) ∧
    (∀ p s, Feed.bigramTrain p s ⟨sents, none⟩ = BG.train p sents) ∧
    (∀ p s words m, Feed.nounTrain p s words (steady sents) m = (match V1.train p s sents m with
      | .ok s' => ((s', some (Dict.keys s'.substringCounter)), .ok ()) | .error e => ((s, words), .error e))) ∧
    (∀ p, Feed.countEojeols p (steady sents) = EC.construct p (some sents)) ∧
    (∀ p s m, Feed.nounTrain2 p s (steady sents) m = (match V2.trainWithSentences p s sents m with | .ok s' => (s', .ok ()) | .error e => (s, .error e))) ∧
    (∀ p s, Feed.fit p s ⟨sents, none⟩ = (match VZ.fit p sents with | .ok s' => (s', .ok ()) | .error e => (s, .error e))) ∧
    (∀ p s, Feed.newsTrain p s (steady sents) = (match NewsNoun.train p s sents with | .ok s' => (s', .ok ()) | .error e => (s, .error e))) := by
  have hl : ¬ sents.length ≤ 0 := by have := List.length_pos_iff.2 hne; omega
  have hc : ∀ p, Feed.countEojeols p (steady sents) = EC.construct p (some sents) := by
    intro p
    unfold Feed.countEojeols EC.construct EC.counting EC.checkCorpus steady
    simp [hl]
  refine ⟨?_, ?_, ?_, hc, ?_, ?_, ?_⟩
  · intro p s k cum
    rw [wx_train_ok p s sents k cum hne]
    unfold Feed.wordTrain steady
    simp only [hl, if_false]
  · intro p s; rfl
  · intro p s words m
    obtain ⟨s', hs'⟩ := (C45_train p s sents m).2 hne
    rw [hs']
    unfold V1.train at hs'
    rw [if_neg hne] at hs'
    unfold Feed.nounTrain steady
    simp only [hl, if_false]
    dsimp only at hs'
    generalize LR.construct (V1.buildLrgraph p sents (Dict.keys (V1.scanVocabulary p sents m).1) (V1.scanVocabulary p sents m).2) = z at hs' ⊢
    cases z with
    | error e => cases hs'
    | ok g => cases hs'; rfl
  · intro p s m
    unfold Feed.nounTrain2 V2.trainWithSentences
    rw [hc]
    cases hcc : EC.construct (V2.counterParams p m) (some sents) with
    | error e => rfl
    | ok c =>
      obtain ⟨_, hpos, hsum, _⟩ := V2.counter_ok hcc
      have h0 : c.countSum ≠ -1 := by
        have := EC.sumI_nonneg (fun kv hkv => (show (0:Int) ≤ kv.2 by have := (hpos kv hkv).1; omega))
        rw [hsum]; omega
      dsimp only
      unfold V2.trainWithEojeolCounter
      cases LR.toLrgraph c p.maxLeft p.maxRight with
      | error e => rfl
      | ok g =>
        dsimp only
        unfold V2.trainWithLrgraph
        rw [if_neg h0]
  · intro p s
    unfold Feed.fit
    dsimp only
    cases VZ.fit p sents <;> rfl
  · intro p s
    unfold Feed.newsTrain NewsNoun.train steady
    simp only [hl, hne, if_false]

/-- **C99** The same for the predicator extractor. -/
theorem C99_steady_predicator (sents : List Str) (hne : sents ≠ []) (entLt : List Int → Rat → Bool) (enumS : List Str → List Str)
    (enumL : List (Str × Str) → List (Str × Str)) (t : Pred.Thresholds) (doEomi doStem : Bool) (s : Pred.State) (m : Int) :
    (match Feed.predTrain entLt enumS enumL t doEomi doStem s (steady sents) m with | (s', .ok ()) => .ok s' | (_, .error e) => .error e) =
      Pred.train entLt enumS enumL t doEomi doStem s (.sentences sents) m := by
  have hc := (C99_steady sents hne).2.2.2.1
  unfold Feed.predTrain Pred.train Pred.count Pred.trainWithSentences
  rw [hc]
  dsimp only
  cases EC.construct (Pred.counterParams s m) (some sents) with
  | error e => rfl
  | ok c =>
    dsimp only [Except.map]
    cases Pred.learn entLt enumS enumL t doEomi doStem (Pred.trainWithEojeolCounter s c).1 <;> rfl

/-! ### the corpus fails -/

/-- **C99** The corpus fails on the first reading: the noun extractors (all three), the vectorizer and the predicator extractor pass the exception on and are
    exactly what they were; no `EojeolCounter` comes into being. -/
theorem C99_untouched (c : Feed.Corpus) (hl : 0 < c.len) (e : PyErr) (hf : (c.pass 0).fails = some e) :
    (∀ p s words m, Feed.nounTrain p s words c m = ((s, words), .error e)) ∧
    (∀ p, Feed.countEojeols p c = .error e) ∧
    (∀ p s m, Feed.nounTrain2 p s c m = (s, .error e)) ∧
    (∀ p s, Feed.newsTrain p s c = (s, .error e)) ∧
    (∀ p s, Feed.fit p s (c.pass 0) = (s, .error e)) ∧
    (∀ entLt enumS enumL t doEomi doStem s m, Feed.predTrain entLt enumS enumL t doEomi doStem s c m = (s, .error e)) := by
  have hl' : ¬ c.len ≤ 0 := by omega
  have hc : ∀ p, Feed.countEojeols p c = .error e := by
    intro p
    unfold Feed.countEojeols
    simp only [hl', if_false, hf]
  refine ⟨?_, hc, ?_, ?_, ?_, ?_⟩
  · intro p s words m
    unfold Feed.nounTrain
    simp only [hl', if_false, hf]
  · intro p s m
    unfold Feed.nounTrain2
    rw [hc]
  · intro p s
    unfold Feed.newsTrain
    simp only [hl', if_false, hf]
  · intro p s
    unfold Feed.fit
    rw [hf]
  · intro entLt enumS enumL t doEomi doStem s m
    unfold Feed.predTrain
    rw [hc]

/-- a corpus of two sentences whose second one cannot be read, offered to an extractor trained before: its graph stays -/
example : (match V2.trainWithSentences {} {} ["학교는 학교".toList] with
    | .ok s => decide ((Feed.nounTrain2 {} s ⟨2, fun _ => ⟨["집에".toList], some .osError⟩⟩).1 = s ∧ s.lrgraph.isSome)
    | .error _ => false) = true := by decide +kernel

/-- **C99** A corpus without length is refused by all of them (the vectorizer and the bigram extractor do not ask), and nothing is touched. -/
theorem C99_empty (c : Feed.Corpus) (hl : c.len = 0) :
    (∀ p s k cum, Feed.wordTrain p s c k cum = (s, .error .valueError)) ∧
    (∀ p s words m, Feed.nounTrain p s words c m = ((s, words), .error .valueError)) ∧
    (∀ p s m, Feed.nounTrain2 p s c m = (s, .error .valueError)) ∧
    (∀ p s, Feed.newsTrain p s c = (s, .error .valueError)) ∧
    (∀ entLt enumS enumL t doEomi doStem s m, Feed.predTrain entLt enumS enumL t doEomi doStem s c m = (s, .error .valueError)) := by
  have hl' : c.len ≤ 0 := by omega
  have hc : ∀ p, Feed.countEojeols p c = .error .valueError := by
    intro p
    unfold Feed.countEojeols
    simp only [hl', if_true]
  refine ⟨?_, ?_, ?_, ?_, ?_⟩
  · intro p s k cum
    unfold Feed.wordTrain
    simp only [hl', if_true]
  · intro p s words m
    unfold Feed.nounTrain
    simp only [hl', if_true]
  · intro p s m
    unfold Feed.nounTrain2
    rw [hc]
  · intro p s
    unfold Feed.newsTrain
    simp only [hl', if_true]
  · intro entLt enumS enumL t doEomi doStem s m
    unfold Feed.predTrain
    rw [hc]

/-- **C99** The counting of the predicator extractor succeeds but learning raises: the eojeols are the new ones, the lemmatizer is what it was. -/
theorem C99_predicator_learning (entLt : List Int → Rat → Bool) (enumS : List Str → List Str) (enumL : List (Str × Str) → List (Str × Str))
    (t : Pred.Thresholds) (doEomi doStem : Bool) (s s' : Pred.State) (c : Feed.Corpus) (m : Int) (e : PyErr) (counter : EC.State)
    (hc : Feed.countEojeols (Pred.counterParams s m) c = .ok counter)
    (h : Feed.predTrain entLt enumS enumL t doEomi doStem s c m = (s', .error e)) :
    s' = (Pred.trainWithEojeolCounter s counter).1 := by
  unfold Feed.predTrain at h
  rw [hc] at h
  dsimp only at h
  cases hl : Pred.learn entLt enumS enumL t doEomi doStem (Pred.trainWithEojeolCounter s counter).1 with
  | error e' => rw [hl] at h; cases h; rfl
  | ok x => rw [hl] at h; cases h

/-! ### `LRNounExtractor`: the second reading fails -/

/-- **C99** The first extractor reads the corpus twice. When the second reading fails the exception is passed on; the graph and the words are the former ones, so every
    `predict` and `is_noun` answers as before; but the substring counts are already those of the new corpus. -/
theorem C99_second_reading (p : V1.Params) (s : V1.State) (words : Option (List Str)) (c : Feed.Corpus) (m : Int) (hl : 0 < c.len) (e : PyErr)
    (h0 : (c.pass 0).fails = none) (h1 : (c.pass 1).fails = some e) :
    ∃ s', Feed.nounTrain p s words c m = ((s', words), .error e) ∧
      s'.lrgraph = s.lrgraph ∧ s'.coefficient = s.coefficient ∧
      (∀ w min nouns, V1.predict p s' w min nouns = V1.predict p s w min nouns) ∧ (∀ w x, V1.isNoun p s' w x = V1.isNoun p s w x) ∧
      (∀ w, Dict.getD s'.substringCounter w 0 = keptCount p m (c.pass 0).sents w) := by
  have hl' : ¬ c.len ≤ 0 := by omega
  refine ⟨{ s with substringCounter := (V1.scanVocabulary p (c.pass 0).sents m).1 }, ?_, rfl, rfl, ?_, ?_, fun w => v1_getD_kept w⟩
  · unfold Feed.nounTrain
    simp only [hl', if_false, h0, h1]
  · intro w min nouns
    unfold V1.predict; rfl
  · intro w x
    unfold V1.isNoun V1.predict; rfl

/-- **C99** After such a failure `extract` still answers, from the graph of the former corpus, but it leaves out words by the cohesion scores of the new one. -/
theorem C99_second_reading_extract (p : V1.Params) (s s1 s' : V1.State) (words : Option (List Str)) (sents : List Str) (m : Int) (ht : V1.train p s sents m = .ok s1)
    (c : Feed.Corpus) (m' : Int) (hl : 0 < c.len) (e : PyErr) (h0 : (c.pass 0).fails = none) (h1 : (c.pass 1).fails = some e)
    (hs' : (Feed.nounTrain p s1 words c m').1.1 = s') (ord : List Str) (hord : ord.Perm (Dict.keys s1.substringCounter)) (minScore : Rat) (candidates : List Str) :
    ∃ s2 res, V1.extract p s' ord minScore candidates = .ok (s2, res) ∧ ∀ w,
      (∀ ns, (w, ns) ∈ res → ∃ x, Scored p s1 m sents candidates minScore w x ∧ ns.score = x.1 ∧ ns.knownRRatio = x.2) ∧
      (w ∈ res.map (·.1) ↔ (∃ x, Scored p s1 m sents candidates minScore w x) ∧
        ¬ DroppedBy (cohesionOf p m' (c.pass 0).sents) p s1 m sents candidates minScore w) := by
  have hl' : ¬ c.len ≤ 0 := by omega
  have hs : s' = { s1 with substringCounter := (V1.scanVocabulary p (c.pass 0).sents m').1 } := by
    rw [← hs']
    unfold Feed.nounTrain
    simp only [hl', if_false, h0, h1]
  obtain ⟨g, hg, _, _, _, _, _, hsc, _⟩ := V1.train_ok ht
  have hg' : s'.lrgraph = some g := by rw [hs]; exact hg
  obtain ⟨s2, res, hr⟩ := v1_extract_total (p := p) hg' ord minScore candidates
  refine ⟨s2, res, hr, fun w => ?_⟩
  have hpred : ∀ w, V1.predict p s' w = V1.predict p s1 w := by
    intro w; rw [hs]; unfold V1.predict; rfl
  have hsco : ∀ w x, Scored p s' m sents candidates minScore w x ↔ Scored p s1 m sents candidates minScore w x := by
    intro w x; unfold Scored; rw [hpred]
  have key := v1_extracted p s' s2 sents m g hg' (cohesionOf p m' (c.pass 0).sents) (fun w hw => by rw [hs]; exact v1_cohesion p _ m' w hw) ord
    (fun w => by rw [hord.mem_iff, hsc, v1_mem_left]) minScore candidates res hr w
  simp only [DroppedBy, hsco] at key ⊢
  have hco : s'.coefficient = s1.coefficient := by rw [hs]
  rw [hco] at key
  exact key

private def c99p : V1.Params := { ensureNormalized := true, minNumOfFeatures := 0 }
private def c99coef : Dict Str Rat := [("x".toList, 1), ("y".toList, 1), ("c".toList, 1)]
private def c99corpus : List Str := ["ab abx aby abc abcx abcy".toList]
/-- another corpus, whose second reading fails -/
private def c99other : Feed.Corpus := ⟨1, fun i => if i = 0 then ⟨["zz".toList], none⟩ else ⟨[], some .osError⟩⟩

/-- "abc" is less cohesive than "ab" in the first corpus and left out; in the other corpus neither has been seen, so after the failed training it is reported -/
example : (match V1.train c99p { coefficient := c99coef } c99corpus 1 with
    | .ok s => (match V1.extract c99p s (Dict.keys s.substringCounter), V1.extract c99p (Feed.nounTrain c99p s none c99other 1).1.1 (Dict.keys s.substringCounter) with
      | .ok a, .ok b => (a.2.map (·.1), b.2.map (·.1))
      | _, _ => ([], []))
    | .error _ => ([], [])) = (["ab".toList], ["ab".toList, "abc".toList]) := by decide +kernel
example : 0 < c99other.len ∧ (c99other.pass 0).fails = none ∧ (c99other.pass 1).fails = some .osError := by decide +kernel

/-- **C99** A corpus that can be read only once (it hands out nothing the second time, without failing) passes the check of the corpus, and `train` returns; but nothing has a right part then:
    every `predict` is (0, 0) unless a dictionary of nouns is given, and nothing is extracted with a positive `min_noun_score`. -/
theorem C99_read_once (p : V1.Params) (s : V1.State) (words : Option (List Str)) (c : Feed.Corpus) (m : Int) (hl : 0 < c.len)
    (h0 : (c.pass 0).fails = none) (h1 : c.pass 1 = ⟨[], none⟩) :
    ∃ s', Feed.nounTrain p s words c m = ((s', some (Dict.keys s'.substringCounter)), .ok ()) ∧
      (∀ w, V1.predict p s' w = .ok (0, 0)) ∧
      (∀ (ord : List Str) (minScore : Rat) (candidates : List Str), ord.Perm (Dict.keys s'.substringCounter) → 0 < minScore →
        ∃ s2, V1.extract p s' ord minScore candidates = .ok (s2, [])) := by
  have hl' : ¬ c.len ≤ 0 := by omega
  have hb : V1.buildLrgraph p [] (Dict.keys (V1.scanVocabulary p (c.pass 0).sents m).1) (V1.scanVocabulary p (c.pass 0).sents m).2 = [] := rfl
  have hcon : LR.construct ([] : Nested Str) = .ok { lr := [], rl := [], origin := some [], lMax := 10, rMax := 9 } := by decide +kernel
  have hpred : ∀ w, V1.predict p { s with substringCounter := (V1.scanVocabulary p (c.pass 0).sents m).1, lrgraph := some { lr := [], rl := [], origin := some [], lMax := 10, rMax := 9 } } w = .ok (0, 0) := by
    intro w
    rw [v1_predict_default rfl]
    have hr : V1.rFeatures { lr := [], rl := [], origin := some [], lMax := 10, rMax := 9 } w = [] := rfl
    unfold V1.score
    rw [hr]
    split <;> rfl
  refine ⟨{ s with substringCounter := (V1.scanVocabulary p (c.pass 0).sents m).1, lrgraph := some { lr := [], rl := [], origin := some [], lMax := 10, rMax := 9 } }, ?_, hpred, ?_⟩
  · unfold Feed.nounTrain
    simp only [hl', if_false, h0, h1, hb, hcon]
  · intro ord minScore candidates hord hpos
    obtain ⟨s2, res, hr⟩ := v1_extract_total (p := p) (s' := { s with substringCounter := (V1.scanVocabulary p (c.pass 0).sents m).1, lrgraph := some { lr := [], rl := [], origin := some [], lMax := 10, rMax := 9 } })
      rfl ord minScore candidates
    refine ⟨s2, ?_⟩
    rw [hr]
    cases res with
    | nil => rfl
    | cons x res =>
      obtain ⟨S, hS⟩ : ∃ S : V1.State, S = { s with substringCounter := (V1.scanVocabulary p (c.pass 0).sents m).1, lrgraph := some { lr := [], rl := [], origin := some [], lMax := 10, rMax := 9 } } := ⟨_, rfl⟩
      have hg : S.lrgraph = some { lr := [], rl := [], origin := some [], lMax := 10, rMax := 9 } := by rw [hS]
      have hc : S.substringCounter = (V1.scanVocabulary p (c.pass 0).sents m).1 := by rw [hS]
      rw [← hS] at hr hord
      rw [← hS] at hpred
      have key := v1_extracted p S s2 (c.pass 0).sents m _ hg (cohesionOf p m (c.pass 0).sents) (fun w hw => by rw [hc]; exact v1_cohesion p _ m w hw) ord
        (fun w => by rw [hord.mem_iff, hc, v1_mem_left]) minScore candidates _ hr x.1
      obtain ⟨y, hy, _⟩ := key.1 x.2 (List.mem_cons_self ..)
      have h3 := hy.2.2.1
      rw [hpred] at h3
      cases h3
      exact absurd hpos (not_lt.2 hy.2.2.2)

/-! ### `WordExtractor` -/

private theorem wx_fold_shift (p : WX.Params) (k : Int) (n : Nat) (hk : k ≤ 0 ∨ k ∣ (n : Int)) (b : List Str) (i : Nat) (s : WX.State) :
    (b.zipIdx (n + i)).foldl (WX.trainSent p k) s = (b.zipIdx i).foldl (WX.trainSent p k) s := by
  induction b generalizing i s with
  | nil => rfl
  | cons x b ih =>
    rw [List.zipIdx_cons, List.zipIdx_cons, List.foldl_cons, List.foldl_cons]
    have hx : WX.trainSent p k s (x, n + i) = WX.trainSent p k s (x, i) := by
      unfold WX.trainSent
      dsimp only
      have hm : (k > 0 ∧ ((n + i : Nat) : Int) % k = 0) ↔ (k > 0 ∧ (i : Int) % k = 0) := by
        rcases hk with hk | hk
        · constructor <;> rintro ⟨h, _⟩ <;> omega
        · have : ((n + i : Nat) : Int) % k = (i : Int) % k := by
            push_cast
            rw [Int.add_emod, Int.emod_eq_zero_of_dvd hk, Int.zero_add, Int.emod_emod]
          rw [this]
      simp only [hm]
    rw [hx]
    exact ih (i + 1) _

/-- **C99** The corpus of a `WordExtractor` fails after the sentences `a`: what has been read stays in the tables, nothing is pruned for the end of the training; training afterwards with the sentences not yet
    read, `cumulate=True`, gives exactly the tables of one undisturbed training (if `num_for_pruning` is off or divides the number of sentences read). -/
theorem C99_resume (p : WX.Params) (s : WX.State) (a b : List Str) (hb : b ≠ []) (k : Int) (hk : k ≤ 0 ∨ k ∣ (a.length : Int)) (cum : Bool) (n : Nat) (hn : 0 < n) (e : PyErr) :
    (Feed.wordTrain p s ⟨n, fun _ => ⟨a, some e⟩⟩ k cum).2 = .error e ∧
    WX.train p (Feed.wordTrain p s ⟨n, fun _ => ⟨a, some e⟩⟩ k cum).1 b k true = WX.train p s (a ++ b) k cum := by
  have hn' : ¬ n ≤ 0 := by omega
  have hf : Feed.wordTrain p s ⟨n, fun _ => ⟨a, some e⟩⟩ k cum = (a.zipIdx.foldl (WX.trainSent p k) (if cum then s else {}), .error e) := by
    unfold Feed.wordTrain
    simp only [hn', if_false]
  rw [hf]
  refine ⟨rfl, ?_⟩
  rw [wx_train_ok p _ b k true hb, wx_train_ok p s (a ++ b) k cum (by simp [hb]), List.zipIdx_append, List.foldl_append,
    show 0 + a.length = a.length + 0 by omega, wx_fold_shift p k a.length hk b 0]
  rfl

example : (["b c".toList] : List Str) ≠ [] ∧ ((2 : Int) ≤ 0 ∨ (2 : Int) ∣ (["a".toList, "a b".toList].length : Int)) ∧ 0 < 3 := by decide

/-- **C99** What a failed training leaves: every frequency is the former one (0 without `cumulate`) plus the number of words read that begin (end) with it, whether it reaches `min_frequency` or not. -/
theorem C99_read_part (p : WX.Params) (s : WX.State) (a : List Str) (k : Int) (hk : k ≤ 0) (cum : Bool) (n : Nat) (hn : 0 < n) (e : PyErr) (w : Str) :
    WX.frequency (Feed.wordTrain p s ⟨n, fun _ => ⟨a, some e⟩⟩ k cum).1 w =
      ((if cum then (WX.frequency s w).1 else 0) + prefixCount p.maxLeft (tokensOf a) w, (if cum then (WX.frequency s w).2 else 0) + suffixCount p.maxRight (tokensOf a) w) := by
  have hn' : ¬ n ≤ 0 := by omega
  have hf : Feed.wordTrain p s ⟨n, fun _ => ⟨a, some e⟩⟩ k cum = (a.zipIdx.foldl (WX.trainSent p k) (if cum then s else {}), .error e) := by
    unfold Feed.wordTrain
    simp only [hn', if_false]
  rw [hf]
  unfold WX.frequency
  rw [(wx_fold_counts p _ a hk w).1, (wx_fold_counts p _ a hk w).2]
  cases cum <;> rfl

/-- the whole corpus once more after a failure: the sentences read before are counted twice; from scratch with `cumulate=False` they are not -/
example : (match WX.train { minFrequency := 1 } (Feed.wordTrain { minFrequency := 1 } {} ⟨2, fun _ => ⟨["가나 다".toList], some .osError⟩⟩).1 ["가나 다".toList, "가나".toList] with
      | .ok s => WX.frequency s "가나".toList | .error _ => (0, 0)) = (3, 0) ∧
    (match WX.train { minFrequency := 1 } (Feed.wordTrain { minFrequency := 1 } {} ⟨2, fun _ => ⟨["가나 다".toList], some .osError⟩⟩).1 ["가나 다".toList, "가나".toList] 0 false with
      | .ok s => WX.frequency s "가나".toList | .error _ => (0, 0)) = (2, 0) := by decide +kernel

/-! ### `Bigram` -/

/-- **C99** The sentences of a `Bigram` extractor fail: the exception is passed on; the former counts are lost; with filtering off `extract` by frequency reports every pair of neighbouring words
    read that reaches `threshold`, also those below `min_frequency`. -/
theorem C99_bigram (p : BG.Params) (s : BG.State) (c : Feed.Pass) (e : PyErr) (hf : c.fails = some e)
    (hcp : p.checkpoint ≤ 0 ∨ (c.sents.length : Int) ≤ p.checkpoint) (topk threshold : Int) :
    ∃ s', Feed.bigramTrain p s c = (s', .error e) ∧ ∃ d, BG.extractByFrequency s' topk threshold = .ok d ∧ ∀ b,
      Dict.get? d b = if 0 < bigramCount p c.sents b ∧ threshold ≤ bigramCount p c.sents b then some (bigramCount p c.sents b, bigramCount p c.sents b) else none := by
  refine ⟨⟨some (c.sents.zipIdx.foldl (BG.sentence p) []), s.unigram⟩, ?_, ?_⟩
  · unfold Feed.bigramTrain
    rw [hf]
  have key := fun b => bg_get?_extract _ (bg_wf_fold p c.sents.zipIdx Dict.wf_nil) topk threshold b s.unigram
  obtain ⟨d, e, _, _⟩ := key ([], [])
  refine ⟨d, e, fun b => ?_⟩
  obtain ⟨d', e', _, h⟩ := key b
  rw [e] at e'; cases e'
  rw [h, bg_fold_eq p c.sents hcp, Dict.get?_foldl_inc, bg_count_all]
  by_cases h1 : 0 < bigramCount p c.sents b
  · by_cases h3 : threshold ≤ bigramCount p c.sents b <;> simp [h1, h3, Option.filter]
  · simp [h1]

/-- **C99** The counts of single words are not renewed: with the scores 'pmi' and 'mikolov' the next `extract` raises as soon as a word read was not in a pair of the last completed training. -/
theorem C99_bigram_scores (p : BG.Params) (s : BG.State) (c : Feed.Pass) (e : PyErr) (hf : c.fails = some e)
    (hcp : p.checkpoint ≤ 0 ∨ (c.sents.length : Int) ≤ p.checkpoint) (b : Str × Str) (hb : 0 < bigramCount p c.sents b)
    (hnew : b.1 ∉ Dict.keys s.unigram ∨ b.2 ∉ Dict.keys s.unigram) (threshold : ℝ) :
    (∃ x, BG.extractByPmi (Feed.bigramTrain p s c).1 threshold = .error x) ∧ (∃ x, BG.extractByMikolov p (Feed.bigramTrain p s c).1 threshold = .error x) := by
  have hs : (Feed.bigramTrain p s c).1 = ⟨some (c.sents.zipIdx.foldl (BG.sentence p) []), s.unigram⟩ := by
    unfold Feed.bigramTrain
    rw [hf]
  have hmem : ∃ n, (b, n) ∈ c.sents.zipIdx.foldl (BG.sentence p) [] := by
    refine ⟨bigramCount p c.sents b, Dict.mem_of_get? ?_⟩
    rw [bg_fold_eq p c.sents hcp, Dict.get?_foldl_inc, bg_count_all]
    simp [hb]
  obtain ⟨n, hm⟩ := hmem
  have key : ∀ (f : Nat → Nat → ℝ) (d : Dict (Str × Str) Nat), (b, n) ∈ d → ∀ acc, ∃ x, BG.scoreAll (BG.scoreWith s.unigram f) threshold d acc = .error x := by
    intro f d
    induction d with
    | nil => intro h; cases h
    | cons y d ih =>
      intro h acc
      unfold BG.scoreAll
      cases hy : BG.scoreWith s.unigram f y with
      | error x => exact ⟨x, rfl⟩
      | ok v =>
        rcases List.mem_cons.1 h with h | h
        · exfalso
          subst h
          unfold BG.scoreWith at hy
          rcases hnew with hnew | hnew
          · rw [(Dict.get?_eq_none_iff _ _).2 hnew] at hy; cases hy
          · rw [(Dict.get?_eq_none_iff _ _).2 hnew] at hy
            cases hg : Dict.get? s.unigram b.1 with
            | none => rw [hg] at hy; cases hy
            | some a => rw [hg] at hy; cases hy
        · exact ih h _
  rw [hs]
  exact ⟨key _ _ hm _, key _ _ hm _⟩

example : 0 < bigramCount {} ["a b".toList] (['a'], ['b']) ∧ ((({} : BG.Params).checkpoint ≤ 0) ∨ (["a b".toList].length : Int) ≤ ({} : BG.Params).checkpoint) := by decide +kernel

end Props
