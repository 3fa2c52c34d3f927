import Verif.Model.PredTrain
import Verif.Props.C60
import Verif.Props.C24_C28
/-! C61: training a `PredicatorExtractor` with `extract_eomi` / `extract_stem` adds exactly what the two extractors find in the eojeols without nouns. -/
set_option linter.unusedSimpArgs false
set_option linter.unusedVariables false
namespace Props
open Py Nested Lemma

/-! ### specification -/

/-- the eojeols learnt from: at least two letters, and no noun of at least two letters begins them -/
def LearnEojeols (nouns : List Str) (c c2 : Dict Str Int) : Prop :=
  c2.WF ∧ ∀ w n, Dict.get? c2 w = some n ↔ Dict.get? c w = some n ∧ 2 ≤ w.length ∧ ∀ a b, w = a ++ b → 2 ≤ a.length → a ∉ nouns

/-- the ending `y` is learnt (C59) -/
def EomiLearnt (c : Dict Str Int) (stems nouns : List Str) (t : Pred.Thresholds) (y : Str) : Prop :=
  ∃ d x, EomiTable 10 9 c (SurfaceOf stems) nouns t.numFeatures t.eomiScore [] d ∧ EomiEntry 10 9 c stems t.eomiScore d y x ∧ t.eomiFrequency ≤ x.1

/-- the stem `y` is learnt (C60) -/
def StemLearnt (c : Dict Str Int) (stems eomis : List Str) (t : Pred.Thresholds) (y : Str) : Prop :=
  ∃ (ext surf : Dict Str (Rat × Int)) (x : Rat × Rat),
    (∀ l x, Dict.get? ext l = some x ↔ StemAccepted 10 9 c (KnownL 10 9 c stems eomis) (KnownR 10 9 c stems eomis) t.uniqueChars t.entropy [] t.stemScore t.stemFrequency l x) ∧
    (∀ l x, Dict.get? surf l = some x ↔ Dict.get? ext l = some x ∧ ¬ StemRemoved (KnownL 10 9 c stems eomis) (KnownR 10 9 c stems eomis) (· ∈ Dict.keys ext) l) ∧
    StemEntry 10 9 c eomis surf y x

/-! ### proofs -/

private theorem contains_iff {l : Str} {S : List Str} : S.contains l = true ↔ l ∈ S := by simp

private theorem learnEojeols (nouns : List Str) (c : Dict Str Int) (hw : c.WF) : LearnEojeols nouns c (Pred.predEojeols nouns c) := by
  refine ⟨hw.filter _, fun w n => ?_⟩
  unfold Pred.predEojeols
  rw [← Dict.mem_iff_get? (hw.filter _)]
  rw [List.mem_filter, Dict.mem_iff_get? hw, Bool.and_eq_true, decide_eq_true_iff, Bool.not_eq_true', ← Bool.not_eq_true]
  have : Pred.containsNoun nouns w = true ↔ ∃ a b, w = a ++ b ∧ 2 ≤ a.length ∧ a ∈ nouns := by
    unfold Pred.containsNoun
    rw [List.any_eq_true]
    constructor
    · rintro ⟨i, hi, h⟩
      rw [List.mem_range'_1] at hi
      exact ⟨w.take i, w.drop i, (List.take_append_drop _ _).symm, by rw [List.length_take]; omega, contains_iff.1 h⟩
    · rintro ⟨a, b, rfl, ha, h⟩
      refine ⟨a.length, ?_, ?_⟩
      · rw [List.mem_range'_1, List.length_append]; omega
      · rw [List.take_left]; exact contains_iff.2 h
  rw [this]
  constructor
  · rintro ⟨h1, h2, h3⟩
    exact ⟨h1, h2, fun a b e ha hn => h3 ⟨a, b, e, ha, hn⟩⟩
  · rintro ⟨h1, h2, h3⟩
    exact ⟨h1, h2, fun ⟨a, b, e, ha, hn⟩ => h3 a b e ha hn⟩

private theorem mem_keys_iff {ν : Type} (d : Dict Str ν) (y : Str) : y ∈ Dict.keys d ↔ ∃ x, Dict.get? d y = some x := by
  rw [← Dict.isSome_get?_iff, Option.isSome_iff_exists]

private theorem surfaceOf_perm {a b : List Str} (h : a.Perm b) : SurfaceOf a = SurfaceOf b := by
  funext l
  unfold SurfaceOf
  simp only [h.mem_iff]

section
variable (entLt : List Int → Rat → Bool) (hent : ∀ cs x, entLt cs x = true ↔ countEntropy cs < (x : ℝ))
  (enumS : List Str → List Str) (hS : ∀ l, (enumS l).Perm l) (enumL : List (Str × Str) → List (Str × Str)) (hL : ∀ l, (enumL l).Perm l)
  (t : Pred.Thresholds) (s : Pred.State) (ec : EC.State) (hs : s.counter = some ec) (hw : ec.counter.WF) (hp : ∀ kv ∈ ec.counter, 0 < kv.2)

include hS hL in
private theorem eomi_part (c : Dict Str Int) (hw : c.WF) (g : LR.State) (hf : V2.Fresh c g) (hg : g.lr = LR.lrOfCounter 10 9 c) :
    (∀ e, Pred.extractEomi enumS enumL t s g = .error e → ∃ stem ∈ s.stems, conjugateStem stem = .error e) ∧
    ((∃ stem ∈ s.stems, ∃ e, conjugateStem stem = .error e) → ∃ e, Pred.extractEomi enumS enumL t s g = .error e) ∧
    (∀ s1 g1, Pred.extractEomi enumS enumL t s g = .ok (s1, g1) → g1 = g ∧ s1 = { s with eomis := s1.eomis } ∧
      ∀ y, y ∈ s1.eomis ↔ y ∈ s.eomis ∨ EomiLearnt c s.stems s.nouns t y) := by
  have hx := C59_extract { lrgraph := g, stems := enumS s.stems, nouns := s.nouns, minNumOfFeatures := t.numFeatures } 10 9 c hw hf hg enumS hS enumL hL [] t.eomiScore t.eomiFrequency true
  obtain ⟨x1, x2⟩ := hx
  dsimp only at x1 x2
  have hmem : ∀ st, st ∈ enumS s.stems ↔ st ∈ s.stems := fun st => (hS _).mem_iff
  have huniq : ∀ d d' : Dict Str (Int × Rat), d.Perm d' → d.WF → ∀ y x, EomiEntry 10 9 c s.stems t.eomiScore d y x → EomiEntry 10 9 c s.stems t.eomiScore d' y x := by
    intro d d' hper hwd y x
    have hwd' : d'.WF := by
      show (d'.map Prod.fst).Nodup
      exact (hper.map Prod.fst).nodup_iff.1 hwd
    have : ∀ r v, Dict.get? d r = some v ↔ Dict.get? d' r = some v := by
      intro r v
      rw [← Dict.mem_iff_get? hwd, ← Dict.mem_iff_get? hwd', hper.mem_iff]
    unfold EomiEntry Reading
    simp only [this]
    exact id
  have hstm : ∀ d y x, EomiEntry 10 9 c (enumS s.stems) t.eomiScore d y x ↔ EomiEntry 10 9 c s.stems t.eomiScore d y x := by
    intro d y x
    unfold EomiEntry Reading
    simp only [hmem]
  unfold Pred.extractEomi
  refine ⟨?_, ?_, ?_⟩
  · intro e h
    cases hE : Eomi.extract enumS enumL { lrgraph := g, stems := enumS s.stems, nouns := s.nouns, minNumOfFeatures := t.numFeatures } [] t.eomiScore t.eomiFrequency true with
    | error e' =>
      rw [hE] at h
      cases h
      obtain ⟨a, stem, b, h1, _, h2⟩ := (x1 e).1 hE
      exact ⟨stem, by rw [← hmem, h1]; simp, h2⟩
    | ok p => rw [hE] at h; cases h
  · rintro ⟨stem, h1, e, h2⟩
    cases hE : Eomi.extract enumS enumL { lrgraph := g, stems := enumS s.stems, nouns := s.nouns, minNumOfFeatures := t.numFeatures } [] t.eomiScore t.eomiFrequency true with
    | error e' => exact ⟨e', rfl⟩
    | ok p =>
      exfalso
      -- the first stem that raises
      have hfirst : ∀ l : List Str, stem ∈ l → ∃ e' a st b, l = a ++ st :: b ∧ (∀ u ∈ a, ∃ o, conjugateStem u = .ok o) ∧ conjugateStem st = .error e' := by
        intro l
        induction l with
        | nil => intro h; cases h
        | cons u l ih =>
          intro h
          cases hu : conjugateStem u with
          | error e' => exact ⟨e', [], u, l, rfl, by simp, hu⟩
          | ok o =>
            rcases List.mem_cons.1 h with rfl | h
            · rw [h2] at hu; cases hu
            · obtain ⟨e', a, st, b, q1, q2, q3⟩ := ih h
              refine ⟨e', u :: a, st, b, by rw [q1]; rfl, ?_, q3⟩
              intro v hv
              rcases List.mem_cons.1 hv with rfl | hv
              · exact ⟨o, hu⟩
              · exact q2 v hv
      obtain ⟨e', a, st, b, q⟩ := hfirst _ ((hmem stem).2 h1)
      have := (x1 e').2 ⟨a, st, b, q⟩
      rw [hE] at this; cases this
  · intro s1 g1 h
    cases hE : Eomi.extract enumS enumL { lrgraph := g, stems := enumS s.stems, nouns := s.nouns, minNumOfFeatures := t.numFeatures } [] t.eomiScore t.eomiFrequency true with
    | error e' => rw [hE] at h; cases h
    | ok p =>
      rw [hE] at h
      obtain ⟨x, out⟩ := p
      dsimp only at h
      obtain ⟨d, d1, d2, d3, d4⟩ := x2 x out hE
      have h' := Except.ok.inj h
      have e1 := congrArg Prod.fst h'
      have e2 := congrArg Prod.snd h'
      dsimp only at e1 e2
      refine ⟨by rw [← e2, d4], by rw [← e1], fun y => ?_⟩
      rw [← e1]
      dsimp only
      rw [List.mem_append, List.mem_filter, mem_keys_iff]
      rw [surfaceOf_perm (hS _)] at d1
      constructor
      · rintro (h | ⟨⟨v, hv⟩, _⟩)
        · exact .inl h
        · obtain ⟨a1, a2⟩ := (d3 y v).1 hv
          exact .inr ⟨d, v, d1, (hstm d y v).1 a1, a2⟩
      · rintro (h | ⟨d', v, a1, a2, a3⟩)
        · exact .inl h
        · by_cases hy : y ∈ s.eomis
          · exact .inl hy
          · have hper := C59_unique 10 9 c (SurfaceOf s.stems) s.nouns t.numFeatures t.eomiScore [] d' d a1 d1
            refine .inr ⟨⟨v, (d3 y v).2 ⟨(hstm d y v).2 (huniq d' d hper a1.wf y v a2), a3⟩⟩, ?_⟩
            simpa using hy

include hent hS hL in
private theorem stem_part (hm : 0 < t.stemScore) (c : Dict Str Int) (hw : c.WF) (hp : ∀ kv ∈ c, 0 < kv.2) (g : LR.State) (hi : LR.Inv g) (hg : g.lr = LR.lrOfCounter 10 9 c) :
    Pred.extractStem entLt enumS enumL t s g = { s with stems := (Pred.extractStem entLt enumS enumL t s g).stems } ∧
    ∀ y, y ∈ (Pred.extractStem entLt enumS enumL t s g).stems ↔ y ∈ s.stems ∨ StemLearnt c s.stems s.eomis t y := by
  refine ⟨rfl, fun y => ?_⟩
  unfold Pred.extractStem
  dsimp only
  rw [List.mem_append, List.mem_filter, mem_keys_iff]
  obtain ⟨ext, surf, rem, _, _, w1, w2, w3, a1, a2, a3, a4, _⟩ := C60_extract 10 9 c hw hp g hi hg s.stems s.eomis t.uniqueChars t.entropy entLt hent enumS hS enumL hL []
    t.stemScore hm t.stemFrequency _ _ rfl
  have hsurf : ∀ l x, Dict.get? surf l = some x ↔ Dict.get? ext l = some x ∧
      ¬ StemRemoved (KnownL 10 9 c s.stems s.eomis) (KnownR 10 9 c s.stems s.eomis) (· ∈ Dict.keys ext) l := by
    intro l x
    rw [a3, a2]
    constructor
    · rintro ⟨h1, h2⟩; exact ⟨h1, fun h => h2 ⟨(mem_keys_iff _ _).2 ⟨x, h1⟩, h⟩⟩
    · rintro ⟨h1, h2⟩; exact ⟨h1, fun h => h2 h.2⟩
  constructor
  · rintro (h | ⟨⟨v, hv⟩, _⟩)
    · exact .inl h
    · exact .inr ⟨ext, surf, v, a1, hsurf, (a4 y v).1 hv⟩
  · rintro (h | ⟨ext', surf', v, b1, b2, b3⟩)
    · exact .inl h
    · by_cases hy : y ∈ s.stems
      · exact .inl hy
      · have h1 : ∀ l x, Dict.get? ext' l = some x ↔ Dict.get? ext l = some x := fun l x => by rw [b1, a1]
        have hk : (fun l => l ∈ Dict.keys ext') = (fun l => l ∈ Dict.keys ext) := by
          funext l
          rw [mem_keys_iff, mem_keys_iff]
          simp only [h1]
        have h2 : ∀ l x, Dict.get? surf' l = some x ↔ Dict.get? surf l = some x := fun l x => by rw [b2, hsurf, h1, hk]
        refine .inr ⟨⟨v, (a4 y v).2 ?_⟩, by simpa using hy⟩
        unfold StemEntry StemReading at b3 ⊢
        simp only [h2] at b3
        exact b3

include hent hS hL hs hw hp

/-- C61: after the counting, training keeps everything but the endings and stems, and adds exactly those learnt from the eojeols without nouns; the stems are
    learnt with the endings just learnt among the known ones. -/
theorem C61_learn (doEomi doStem : Bool) (hm : doStem = true → 0 < t.stemScore) (s' : Pred.State) (h : Pred.learn entLt enumS enumL t doEomi doStem s = .ok s') :
    s' = { s with eomis := s'.eomis, stems := s'.stems } ∧ ∃ c2, LearnEojeols s.nouns ec.counter c2 ∧
      (∀ y, y ∈ s'.eomis ↔ y ∈ s.eomis ∨ doEomi = true ∧ EomiLearnt c2 s.stems s.nouns t y) ∧
      (∀ y, y ∈ s'.stems ↔ y ∈ s.stems ∨ doStem = true ∧ StemLearnt c2 s.stems s'.eomis t y) := by
  have hle := learnEojeols s.nouns ec.counter hw
  have hp2 : ∀ kv ∈ Pred.predEojeols s.nouns ec.counter, 0 < kv.2 := fun kv hk => hp kv (List.mem_filter.1 hk).1
  unfold Pred.learn at h
  by_cases hflag : (!(doEomi || doStem)) = true
  · rw [if_pos hflag] at h
    cases h
    have f1 : doEomi = false := by cases doEomi <;> simp_all
    have f2 : doStem = false := by cases doStem <;> simp_all
    exact ⟨rfl, _, hle, by intro y; simp [f1], by intro y; simp [f2]⟩
  · rw [if_neg hflag] at h
    cases hg : Pred.prepareLrgraph s with
    | error e => rw [hg] at h; cases h
    | ok g =>
      rw [hg] at h
      dsimp only at h
      unfold Pred.prepareLrgraph at hg
      rw [hs] at hg
      obtain ⟨hf, hlr⟩ := eomi_graph_ok (ec := { counter := Pred.predEojeols s.nouns ec.counter, countSum := 0, coverage := 0 }) hle.1 hp2 hg
      dsimp only at hf hlr
      generalize Pred.predEojeols s.nouns ec.counter = c2 at *
      obtain ⟨_, _, p3⟩ := eomi_part enumS hS enumL hL t s c2 hle.1 g hf hlr
      cases hE : Pred.eomiStep enumS enumL t doEomi s g with
      | error e => rw [hE] at h; cases h
      | ok q =>
        obtain ⟨s1, g1⟩ := q
        rw [hE] at h
        dsimp only at h
        have key : g1 = g ∧ s1 = { s with eomis := s1.eomis } ∧ ∀ y, y ∈ s1.eomis ↔ y ∈ s.eomis ∨ doEomi = true ∧ EomiLearnt c2 s.stems s.nouns t y := by
          unfold Pred.eomiStep at hE
          cases doEomi with
          | false =>
            rw [if_neg (by decide)] at hE
            have := Except.ok.inj hE
            have e1 : s = s1 := congrArg Prod.fst this
            have e2 : g = g1 := congrArg Prod.snd this
            subst e1; subst e2
            exact ⟨rfl, rfl, by intro y; simp⟩
          | true =>
            rw [if_pos rfl] at hE
            obtain ⟨r1, r2, r3⟩ := p3 s1 g1 hE
            exact ⟨r1, r2, by intro y; rw [r3]; simp⟩
        obtain ⟨k1, k2, k3⟩ := key
        subst k1
        have hreset : (if doEomi then (LR.reset g1).1 else g1) = g1 := by
          cases doEomi with
          | false => rfl
          | true => rw [if_pos rfl, V2.reset_same hf ⟨rfl, rfl, rfl⟩ (.inr rfl)]
        rw [hreset] at h
        have hst : s1.stems = s.stems := by rw [k2]
        cases doStem with
        | false =>
          rw [if_neg (by decide)] at h
          have := Except.ok.inj h
          subst this
          refine ⟨?_, c2, hle, k3, by intro y; rw [hst]; simp⟩
          rw [k2]
        | true =>
          rw [if_pos rfl] at h
          have := Except.ok.inj h
          obtain ⟨m1, m2⟩ := stem_part entLt hent enumS hS enumL hL t s1 (hm rfl) c2 hle.1 hp2 g1 hf.cons.inv hlr
          rw [this] at m1 m2
          have hse : s'.eomis = s1.eomis := by rw [m1]
          refine ⟨?_, c2, hle, by rw [hse]; exact k3, ?_⟩
          · rw [m1, k2]
          · intro y
            rw [m2, hst, hse]
            simp

omit hent hp in
/-- C61: training fails after the counting exactly when endings are to be extracted and some stem cannot be taken apart. -/
theorem C61_raises (hp : ∀ kv ∈ ec.counter, 0 < kv.2) (doEomi doStem : Bool) :
    (∀ e, Pred.learn entLt enumS enumL t doEomi doStem s = .error e → doEomi = true ∧ ∃ stem ∈ s.stems, conjugateStem stem = .error e) ∧
    (doEomi = true → (∃ stem ∈ s.stems, ∃ e, conjugateStem stem = .error e) → ∃ e, Pred.learn entLt enumS enumL t doEomi doStem s = .error e) := by
  have hle := learnEojeols s.nouns ec.counter hw
  have hp2 : ∀ kv ∈ Pred.predEojeols s.nouns ec.counter, 0 < kv.2 := fun kv hk => hp kv (List.mem_filter.1 hk).1
  obtain ⟨g, hg, _⟩ := (C26_counts { counter := Pred.predEojeols s.nouns ec.counter, countSum := 0, coverage := 0 } hle.1 10 9 false).1 ⟨by decide, by decide⟩
  have hprep : Pred.prepareLrgraph s = .ok g := by
    unfold Pred.prepareLrgraph; rw [hs]; exact hg
  obtain ⟨hf, hlr⟩ := eomi_graph_ok (ec := { counter := Pred.predEojeols s.nouns ec.counter, countSum := 0, coverage := 0 }) hle.1 hp2 hg
  obtain ⟨p1, p2, _⟩ := eomi_part enumS hS enumL hL t s _ hle.1 g hf hlr
  unfold Pred.learn
  constructor
  · intro e h
    by_cases hflag : (!(doEomi || doStem)) = true
    · rw [if_pos hflag] at h; cases h
    · rw [if_neg hflag, hprep] at h
      dsimp only at h
      unfold Pred.eomiStep at h
      cases doEomi with
      | false => rw [if_neg (by decide)] at h; cases h
      | true =>
        rw [if_pos rfl] at h
        cases hE : Pred.extractEomi enumS enumL t s g with
        | error e' =>
          rw [hE] at h
          cases h
          exact ⟨rfl, p1 e hE⟩
        | ok q => rw [hE] at h; cases h
  · rintro rfl hst
    rw [if_neg (by simp), hprep]
    dsimp only
    unfold Pred.eomiStep
    rw [if_pos rfl]
    obtain ⟨e, he⟩ := p2 hst
    exact ⟨e, by rw [he]⟩
end

/-! ### concrete -/

def learnState : Pred.State :=
  { nouns := ["너무".toList], josas := [], adjectives := [], verbs := [], stems := ["먹".toList, "잡".toList], eomis := ["는다".toList],
    counter := some { counter := [("먹는다".toList, 3), ("잡는다".toList, 2), ("먹지만".toList, 4), ("잡지만".toList, 1), ("먹네".toList, 1), ("던지지만".toList, 2),
      ("던지는다".toList, 3), ("던지고".toList, 4), ("너무한다".toList, 9), ("책".toList, 2)], countSum := 0, coverage := 0 } }
def learnRun (doEomi doStem : Bool) (s : Pred.State) : Option (List Str × List Str) :=
  match Pred.learn (fun cs _ => decide (cs.length < 2)) id id { numFeatures := 2, eomiFrequency := 1, uniqueChars := 2, stemFrequency := 3 } doEomi doStem s with
  | .ok s => some (s.stems, s.eomis)
  | .error _ => none

/-- the ending 지만 is learnt from the two known stems, and then the stem 던지 because 지만 is known by now -/
example : learnRun true true learnState = some (["먹".toList, "잡".toList, "던지".toList], ["는다".toList, "지만".toList]) := by decide +kernel
/-- without learning endings, 던지 is not learnt -/
example : learnRun false true learnState = some (["먹".toList, "잡".toList], ["는다".toList]) := by decide +kernel
/-- a stem that is no Hangul makes the learning of endings raise, and leaves the learning of stems alone -/
example : learnRun true true { learnState with stems := ["먹".toList, "ab".toList] } = none ∧
    learnRun false true { learnState with stems := ["먹".toList, "잡".toList, "ab".toList] } = some (["먹".toList, "잡".toList, "ab".toList], ["는다".toList]) := by decide +kernel

end Props
