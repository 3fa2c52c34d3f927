import Verif.Props.C56
import Verif.Props.C61
/-! C93: training a `PredicatorExtractor` from sentences, a counter or a graph, and `train_extract` from end to end. -/
namespace Props
open Py Spec

section
variable (entLt : List Int → Rat → Bool) (enumS : List Str → List Str) (enumL : List (Str × Str) → List (Str × Str)) (t : Pred.Thresholds) (doEomi doStem : Bool)

/-- C93: the ways of training. Sentences are counted with the minimum and then treated as a counter with the minimum 2; a graph is treated as the counter it gives. -/
theorem C93_routes (s : Pred.State) (m : Int) :
    (∀ sents, Pred.train entLt enumS enumL t doEomi doStem s (.sentences sents) m =
      match EC.construct (Pred.counterParams s m) (some sents) with
      | .error e => .error e
      | .ok c => Pred.train entLt enumS enumL t doEomi doStem s (.counter c) 2) ∧
    (∀ g, Pred.train entLt enumS enumL t doEomi doStem s (.graph g) m =
      match LR.toEojeolCounter g with
      | .error e => .error e
      | .ok c => Pred.train entLt enumS enumL t doEomi doStem s (.counter c) m) ∧
    (∀ c, Pred.train entLt enumS enumL t doEomi doStem s (.counter c) m =
      Pred.learn entLt enumS enumL t doEomi doStem (Pred.trainWithEojeolCounter s c m).1) := by
  refine ⟨fun sents => ?_, fun g => ?_, fun c => rfl⟩
  · unfold Pred.train Pred.count Pred.trainWithSentences
    dsimp only
    cases hc : EC.construct (Pred.counterParams s m) (some sents) <;> rfl
  · unfold Pred.train Pred.count Pred.trainWithLrgraph
    dsimp only
    cases LR.toEojeolCounter g <;> rfl

/-- C93: `train_extract` is `train` and then `extract` of the words given. -/
theorem C93_train_extract (s : Pred.State) (x : Pred.Input) (m : Int) (given : List (Str × Int)) (f : Int) :
    (∀ e, Pred.train entLt enumS enumL t doEomi doStem s x m = .error e → Pred.trainExtract entLt enumS enumL t doEomi doStem s x m given f = .error e) ∧
    (∀ s', Pred.train entLt enumS enumL t doEomi doStem s x m = .ok s' →
      Pred.trainExtract entLt enumS enumL t doEomi doStem s x m given f = Pred.extract enumL s' given f) := by
  unfold Pred.trainExtract
  exact ⟨fun e h => by rw [h], fun s' h => by rw [h]⟩

/-- C93: what is left out of a call: the minimum frequency is 2, no words are given, a word must occur more than once. -/
theorem C93_defaults (s : Pred.State) (x : Pred.Input) (m : Int) (given : List (Str × Int)) :
    Pred.count s x = Pred.count s x 2 ∧
    Pred.train entLt enumS enumL t doEomi doStem s x = Pred.train entLt enumS enumL t doEomi doStem s x 2 ∧
    Pred.trainExtract entLt enumS enumL t doEomi doStem s x = Pred.trainExtract entLt enumS enumL t doEomi doStem s x 2 [] 1 ∧
    Pred.trainExtract entLt enumS enumL t doEomi doStem s x m given = Pred.trainExtract entLt enumS enumL t doEomi doStem s x m given 1 :=
  ⟨rfl, rfl, rfl, rfl⟩

end

/-- C93: the counting forgets what was counted before: training again on other data leaves the same counter as training on them alone. -/
theorem C93_again (s s1 : Pred.State) (x y : Pred.Input) (m k : Int) (h : Pred.count s x m = .ok s1) : Pred.count s1 y k = Pred.count s y k := by
  obtain ⟨c, hc⟩ : ∃ c, s1 = (Pred.trainWithEojeolCounter s c 0).1 ∨ ∃ k', s1 = (Pred.trainWithEojeolCounter s c k').1 := by
    cases x with
    | sentences sents =>
      have h : Pred.trainWithSentences s sents m = .ok s1 := h
      unfold Pred.trainWithSentences at h
      cases hc : EC.construct (Pred.counterParams s m) (some sents) with
      | error e => rw [hc] at h; cases h
      | ok c => rw [hc] at h; exact ⟨c, Or.inr ⟨2, (Except.ok.inj h).symm⟩⟩
    | counter c => exact ⟨c, Or.inr ⟨m, (Except.ok.inj h).symm⟩⟩
    | graph g =>
      have h : Pred.trainWithLrgraph s g m = .ok s1 := h
      unfold Pred.trainWithLrgraph at h
      cases hc : LR.toEojeolCounter g with
      | error e => rw [hc] at h; cases h
      | ok c => rw [hc] at h; exact ⟨c, Or.inr ⟨m, (Except.ok.inj h).symm⟩⟩
  rcases hc with rfl | ⟨k', rfl⟩ <;> cases y <;> rfl

/-- the eojeols of the sentences as the extractor splits them (normalised unless the caller vouches for it) -/
def predEojeols (s : Pred.State) (sents : List Str) : List Str :=
  eojeolsOf (if s.ensureNormalized then id else Normalizer.normalizeSentForLrgraph) sents

/-- C93, from the sentences to the result, with learning or without. Learning looks at the eojeols of at most 15 characters that occur at least `m` times (and twice), with
    their exact counts, and adds the endings and stems of C61. The words extracted from are those of them in complete syllables and more frequent than `f`; the readings
    are made of the stems and endings known after the learning, and each goes to exactly one of adjectives and verbs (C50, C56). -/
theorem C93_end_to_end (entLt : List Int → Rat → Bool) (hent : ∀ cs x, entLt cs x = true ↔ countEntropy cs < (x : ℝ))
    (enumS : List Str → List Str) (hS : ∀ l, (enumS l).Perm l) (enumL : List (Str × Str) → List (Str × Str)) (hL : ∀ l, (enumL l).Perm l)
    (t : Pred.Thresholds) (doEomi doStem : Bool) (hm : doStem = true → 0 < t.stemScore) (s s' : Pred.State) (sents : List Str) (m f : Int) (adj vb : Dict Str Pred.Entry)
    (h : Pred.trainExtract entLt enumS enumL t doEomi doStem s (.sentences sents) m [] f = .ok (s', adj, vb)) :
    ∃ s1 counted c2 cands rd known,
      Pred.train entLt enumS enumL t doEomi doStem s (.sentences sents) m = .ok s1 ∧
      Dict.WF counted ∧ (∀ w (n : Int), (w, n) ∈ counted ↔ w ∈ predEojeols s sents ∧ n = (predEojeols s sents).count w ∧ w.length ≤ 15 ∧ max m 2 ≤ n) ∧
      LearnEojeols s.nouns counted c2 ∧ (s1.nouns = s.nouns ∧ s1.josas = s.josas ∧ s1.adjectives = s.adjectives ∧ s1.verbs = s.verbs) ∧
      (∀ y, y ∈ s1.eomis ↔ y ∈ s.eomis ∨ doEomi = true ∧ EomiLearnt c2 s.stems s.nouns t y) ∧
      (∀ y, y ∈ s1.stems ↔ y ∈ s.stems ∨ doStem = true ∧ StemLearnt c2 s.stems s1.eomis t y) ∧
      Dict.WF cands ∧ (∀ w (n : Int), (w, n) ∈ cands ↔ (w, n) ∈ counted ∧ (∀ c ∈ w, Syllable c) ∧ f < n) ∧
      PredWords s1.nouns cands adj vb rd known ∧ PredResultBy (IsVerbStem s.verbs s.adjectives known) s1 s' cands adj vb rd := by
  cases ht : Pred.train entLt enumS enumL t doEomi doStem s (.sentences sents) m with
  | error e => rw [(C93_train_extract entLt enumS enumL t doEomi doStem s (.sentences sents) m [] f).1 e ht] at h; cases h
  | ok s1 =>
    rw [(C93_train_extract entLt enumS enumL t doEomi doStem s (.sentences sents) m [] f).2 s1 ht] at h
    have hne : sents ≠ [] := by
      rintro rfl
      unfold Pred.train at ht
      rw [show Pred.count s (.sentences []) m = .error .valueError from (C56_train_sentences s [] m).1 rfl] at ht
      cases ht
    obtain ⟨s0, c, hc, h1, h2, h3⟩ := (C56_train_sentences s sents m).2 hne
    have hs0 : s0.nouns = s.nouns ∧ s0.josas = s.josas ∧ s0.adjectives = s.adjectives ∧ s0.verbs = s.verbs ∧ s0.eomis = s.eomis ∧ s0.stems = s.stems := by
      unfold Pred.trainWithSentences at hc
      obtain ⟨ec, _, rfl⟩ := Lemma.map_ok hc
      exact ⟨rfl, rfl, rfl, rfl, rfl, rfl⟩
    unfold Pred.train at ht
    rw [show Pred.count s (.sentences sents) m = .ok s0 from hc] at ht
    have ht : Pred.learn entLt enumS enumL t doEomi doStem s0 = .ok s1 := ht
    obtain ⟨k1, c2, k2, k3, k4⟩ := C61_learn entLt hent enumS hS enumL hL t s0 c h1 h2 (fun kv hk => by
      have := ((h3 kv.1 kv.2).1 hk).2.2.2; omega) doEomi doStem hm s1 ht
    have hk : s1.counter = some c := by rw [k1]; exact h1
    have hcand : PredCands s1 [] f (c.counter.filter (fun kv => decide (f < kv.2 ∧ ∀ ch ∈ kv.1, Syllable ch))) := Or.inr ⟨rfl, c, hk, rfl⟩
    obtain ⟨rd, known, q1, q2⟩ := C56_extract_any enumL hL s1 s' [] _ f hcand (h2.filter _) adj vb h
    have hn : s1.nouns = s.nouns := by rw [k1]; exact hs0.1
    have hj : s1.josas = s.josas := by rw [k1]; exact hs0.2.1
    have ha : s1.adjectives = s.adjectives := by rw [k1]; exact hs0.2.2.1
    have hv : s1.verbs = s.verbs := by rw [k1]; exact hs0.2.2.2.1
    rw [ha, hv] at q2
    rw [hs0.1, hs0.2.2.2.2.2, hs0.2.2.2.2.1] at k3
    rw [hs0.2.2.2.2.2] at k4
    rw [hs0.1] at k2
    refine ⟨s1, c.counter, c2, _, rd, known, rfl, h2, ?_, k2, ⟨hn, hj, ha, hv⟩, k3, k4, h2.filter _, ?_, q1, q2⟩
    · intro w n
      rw [h3]
      unfold predEojeols
      constructor
      · rintro ⟨a, b, c, d⟩; exact ⟨a, c, b, d⟩
      · rintro ⟨a, b, c, d⟩; exact ⟨a, c, b, d⟩
    · intro w n
      rw [List.mem_filter, decide_eq_true_iff]
      exact ⟨fun ⟨a, b, c⟩ => ⟨a, c, b⟩, fun ⟨a, b, c⟩ => ⟨a, c, b⟩⟩

/-- C93: when `train_extract` on sentences succeeds: there is a sentence, every stem can be taken apart if endings are to be learnt, and, for a talkative
    extractor, some eojeol of at most 15 characters is frequent enough (else a progress message divides by zero). -/
theorem C93_succeeds (entLt : List Int → Rat → Bool) (hent : ∀ cs x, entLt cs x = true ↔ countEntropy cs < (x : ℝ))
    (enumS : List Str → List Str) (hS : ∀ l, (enumS l).Perm l) (enumL : List (Str × Str) → List (Str × Str)) (hL : ∀ l, (enumL l).Perm l)
    (t : Pred.Thresholds) (doEomi doStem : Bool) (hm : doStem = true → 0 < t.stemScore) (s : Pred.State) (sents : List Str) (m f : Int) :
    (∃ r, Pred.trainExtract entLt enumS enumL t doEomi doStem s (.sentences sents) m [] f = .ok r) ↔
      sents ≠ [] ∧ (doEomi = true → ∀ x ∈ s.stems, ∃ out, Lemma.conjugateStem x = .ok out) ∧
      (s.verbose = true → ∃ w ∈ predEojeols s sents, w.length ≤ 15 ∧ max m 2 ≤ ((predEojeols s sents).count w : Int)) := by
  obtain ⟨t1, t2⟩ := C93_train_extract entLt enumS enumL t doEomi doStem s (.sentences sents) m [] f
  by_cases hne : sents = []
  · subst hne
    have : Pred.train entLt enumS enumL t doEomi doStem s (.sentences []) m = .error .valueError := by
      unfold Pred.train
      rw [show Pred.count s (.sentences []) m = .error .valueError from (C56_train_sentences s [] m).1 rfl]
    rw [t1 _ this]
    exact ⟨fun ⟨r, h⟩ => by (cases h), fun h => absurd rfl h.1⟩
  obtain ⟨s0, c, hc, h1, h2, h3⟩ := (C56_train_sentences s sents m).2 hne
  have hs0 : s0.stems = s.stems ∧ s0.verbose = s.verbose ∧ s0.countOfEojeols = (c.counter.map (·.2)).sum := by
    unfold Pred.trainWithSentences at hc
    obtain ⟨ec, _, rfl⟩ := Lemma.map_ok hc
    cases h1
    exact ⟨rfl, rfl, rfl⟩
  have hpos : ∀ kv ∈ c.counter, 0 < kv.2 := fun kv hk => by have := ((h3 kv.1 kv.2).1 hk).2.2.2; omega
  have htr : Pred.train entLt enumS enumL t doEomi doStem s (.sentences sents) m = Pred.learn entLt enumS enumL t doEomi doStem s0 := by
    unfold Pred.train
    rw [show Pred.count s (.sentences sents) m = .ok s0 from hc]
  obtain ⟨r1, r2⟩ := C61_raises entLt enumS hS enumL hL t s0 c h1 h2 hpos doEomi doStem
  have hempty : (c.counter = [] ↔ ¬ ∃ w ∈ predEojeols s sents, w.length ≤ 15 ∧ max m 2 ≤ ((predEojeols s sents).count w : Int)) := by
    unfold predEojeols
    constructor
    · rintro he ⟨w, a, b, d⟩
      have := (h3 w _).2 ⟨a, b, rfl, d⟩
      rw [he] at this
      cases this
    · intro hn
      cases hcc : c.counter with
      | nil => rfl
      | cons kv d =>
        obtain ⟨a, b, e, g⟩ := (h3 kv.1 kv.2).1 (by rw [hcc]; exact List.mem_cons_self)
        exact absurd ⟨kv.1, a, b, e ▸ g⟩ hn
  have hsum : (c.counter.map (·.2)).sum = 0 ↔ c.counter = [] := by
    constructor
    · intro h0
      cases hcc : c.counter with
      | nil => rfl
      | cons kv d =>
        rw [hcc] at h0 hpos
        have h4 := EC.sumI_nonneg (d := d) (fun x hx => by have := hpos x (List.mem_cons_of_mem _ hx); omega)
        have h5 := hpos kv List.mem_cons_self
        have h4 : 0 ≤ (d.map (·.2)).sum := h4
        rw [List.map_cons, List.sum_cons] at h0
        omega
    · intro h0; rw [h0]; rfl
  cases hl : Pred.learn entLt enumS enumL t doEomi doStem s0 with
  | error e =>
    rw [t1 e (htr.trans hl)]
    obtain ⟨hd, x, hx, hxe⟩ := r1 e hl
    refine ⟨fun ⟨r, h⟩ => by (cases h), fun h => ?_⟩
    obtain ⟨out, ho⟩ := h.2.1 hd x (hs0.1 ▸ hx)
    rw [ho] at hxe
    cases hxe
  | ok s1 =>
    rw [t2 s1 (htr.trans hl)]
    obtain ⟨k1, _⟩ := C61_learn entLt hent enumS hS enumL hL t s0 c h1 h2 hpos doEomi doStem hm s1 hl
    have hk : s1.counter = some c := by rw [k1]; exact h1
    have hvb : s1.verbose = s.verbose := by rw [k1]; exact hs0.2.1
    have hco : s1.countOfEojeols = (c.counter.map (·.2)).sum := by rw [k1]; exact hs0.2.2
    rw [C56_total enumL hL s1 [] _ f (Or.inr ⟨rfl, c, hk, rfl⟩) (h2.filter _), hvb, hco, hsum, hempty]
    constructor
    · rintro ⟨_, hz⟩
      refine ⟨hne, fun hd x hx => ?_, fun hv => Classical.byContradiction fun hn => hz ⟨hv, hn⟩⟩
      cases ho : Lemma.conjugateStem x with
      | ok out => exact ⟨out, rfl⟩
      | error e =>
        obtain ⟨e', he'⟩ := r2 hd ⟨x, hs0.1 ▸ hx, e, ho⟩
        rw [hl] at he'
        cases he'
    · rintro ⟨_, _, hv⟩
      refine ⟨fun kv hkv => Or.inr ?_, fun ⟨a, b⟩ => b (hv a)⟩
      rw [List.mem_filter, decide_eq_true_iff] at hkv
      exact hkv.2.2

/-! ### the hypotheses are met -/

set_option synthInstance.maxSize 1000
set_option synthInstance.maxHeartbeats 200000

private def xState : Pred.State :=
  { nouns := ["너무".toList], josas := [], adjectives := [], verbs := ["먹".toList, "잡".toList], stems := ["먹".toList, "잡".toList], eomis := ["는다".toList, "자".toList, "까".toList],
    verbose := false, ensureNormalized := true }
private def xText : List Str := ["먹는다 먹는다 잡는다 잡는다 먹지만 먹지만 먹지만 잡지만 잡지만 먹자 먹자 먹까 먹까 잡자 잡자".toList,
  "던지지만 던지지만 던지는다 던지는다 던지는다 던지자 던지자 던지까 던지까 던지까 책 책 책".toList]
private def xLearn (doEomi doStem : Bool) (sents : List Str) : Option (List Str × List (Str × Int × List (Str × Str))) :=
  ((Pred.trainExtract (fun cs _ => decide (cs.length < 2)) id id { numFeatures := 2, eomiFrequency := 1, uniqueChars := 2, stemFrequency := 3 } doEomi doStem xState
    (.sentences sents) 1).map (fun x => (Dict.keys x.2.1, x.2.2))).toOption

/-- without learning, 던지 is not known -/
example : xLearn false false xText = some ([], [("먹는다".toList, 2, [("먹".toList, "는다".toList)]), ("잡는다".toList, 2, [("잡".toList, "는다".toList)]),
    ("먹자".toList, 2, [("먹".toList, "자".toList)]), ("먹까".toList, 2, [("먹".toList, "까".toList)]), ("잡자".toList, 2, [("잡".toList, "자".toList)])]) := by decide +kernel
/-- the stem 던지 is learnt; it is in no dictionary, and goes to the verbs because two verb forms of it are there -/
example : xLearn false true xText = some ([], [("먹는다".toList, 2, [("먹".toList, "는다".toList)]), ("잡는다".toList, 2, [("잡".toList, "는다".toList)]),
    ("먹자".toList, 2, [("먹".toList, "자".toList)]), ("먹까".toList, 2, [("먹".toList, "까".toList)]), ("잡자".toList, 2, [("잡".toList, "자".toList)]),
    ("던지는다".toList, 3, [("던지".toList, "는다".toList)]), ("던지자".toList, 2, [("던지".toList, "자".toList)]), ("던지까".toList, 3, [("던지".toList, "까".toList)])]) := by decide +kernel
example : xLearn false true [] = none := by decide +kernel

end Props
