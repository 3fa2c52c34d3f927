import Verif.Props.C45
import Verif.Props.C54
import Verif.Props.C56
import Verif.Props.C59
/-! C91: extracting again. -/
namespace Props
open Py Spec

/-! ### LRNounExtractor -/

/-- one call of `LRNounExtractor.extract`: the order in which the set of words is enumerated, the minimum score, the candidates -/
structure V1Call where
  ord : List Str
  minScore : Rat
  candidates : List Str

/-- the extractor after some calls of `extract` -/
def afterV1 (p : V1.Params) (s : V1.State) (calls : List V1Call) : PyM V1.State :=
  calls.foldlM (fun s c => (V1.extract p s c.ord c.minScore c.candidates).map (·.1)) s

/-- C91: a trained LRNounExtractor is, after any calls of `extract`, what it was: none of them raises, and every later call answers as the first. -/
theorem C91_v1 (p : V1.Params) (s s' : V1.State) (sents : List Str) (m : Int) (h : V1.train p s sents m = .ok s') (calls : List V1Call)
    (hc : ∀ c ∈ calls, c.ord.Perm (Dict.keys s'.substringCounter)) : afterV1 p s' calls = .ok s' := by
  induction calls with
  | nil => rfl
  | cons c cs ih =>
    obtain ⟨res, hr, _⟩ := C45_frequency p s s' sents m h c.ord (hc c (by simp)) c.minScore c.candidates
    have := ih (fun d hd => hc d (by simp [hd]))
    unfold afterV1 at this ⊢
    rw [List.foldlM_cons, hr]
    exact this

/-! ### LRNounExtractor_v2 -/

/-- one call of `LRNounExtractor_v2.extract` with `reset_lrgraph` (the default): how sets are enumerated, the two minima -/
structure V2Call where
  enum : Nat → List Str → List Str
  minScore : Rat
  minFrequency : Rat

/-- the extractor after some calls of `extract` -/
def afterV2 (p : V2.Params) (entLt : List Int → Rat → Bool) (s : V2.State) (calls : List V2Call) : PyM V2.State :=
  calls.foldlM (fun s c => (V2.extract p entLt c.enum s c.minScore c.minFrequency true).map (·.1)) s

/-- the fields a later `extract` looks at -/
private structure SameInput (p : V2.Params) (s t : V2.State) : Prop where
  feats : s.feats = t.feats
  lrgraph : s.lrgraph = t.lrgraph
  num : s.numEojeols = t.numEojeols
  parts : p.extractCompound = false → s.decomposer = t.decomposer ∧ s.components = t.components

private theorem extract_same {p : V2.Params} {s t : V2.State} (h : SameInput p s t) (entLt : List Int → Rat → Bool) (enum : Nat → List Str → List Str)
    (m f : Rat) (r : Bool) : V2.extract p entLt enum s m f r = V2.extract p entLt enum t m f r := by
  obtain ⟨a1, a2, a3, a4, a5, a6, a7⟩ := s
  obtain ⟨b1, b2, b3, b4, b5, b6, b7⟩ := t
  obtain ⟨h1, h2, h3, h4⟩ := h
  dsimp only at h1 h2 h3 h4
  subst h1; subst h2; subst h3
  unfold V2.extract
  dsimp only
  split
  · rfl
  · split
    · rfl
    · unfold V2.extractCompoundsIf
      by_cases hx : p.extractCompound = true
      · simp only [hx, if_true]
        cases V2.extractCompounds _ _ _ m with
        | error e => rfl
        | ok C => rfl
      · obtain ⟨e1, e2⟩ := h4 (by simpa using hx)
        subst e1; subst e2
        simp only [hx, if_false]
        rfl

private theorem extract_keeps {p : V2.Params} {s s' : V2.State} {c : EC.State} (hw : c.counter.WF) (hp : ∀ kv ∈ c.counter, 0 < kv.2)
    (hsum : c.countSum = Dict.sumI c.counter) (htrain : V2.trainWithEojeolCounter p s c = .ok s')
    {entLt : List Int → Rat → Bool} {enum : Nat → List Str → List Str} (henum : ∀ i l, (enum i l).Perm l) {m f : Rat} {t : V2.State} {out : Dict Str (Rat × Rat)}
    (h : V2.extract p entLt enum s' m f true = .ok (t, out)) : SameInput p t s' := by
  obtain ⟨d, g, hg, _, hex⟩ := C54_extract p s s' c hw hp hsum htrain entLt enum henum m f true
  obtain ⟨g', _, hf', hn', _⟩ := trained hw hp hsum htrain
  obtain ⟨h1, h2, h3⟩ := hex _ rfl
  cases hcomp : (if p.extractCompound then (V2.extractCompounds s.feats g d m).map (·.compounds) else .ok []) with
  | error e => rw [h1 e hcomp] at h; cases h
  | ok cs =>
    by_cases hv : p.verbose = true ∧ Dict.sumI c.counter = 0
    · rw [h2 cs hcomp hv.1 hv.2] at h; cases h
    · obtain ⟨t', nouns, e1, _, _, e2, e3, e4, _, _, _, _, e5, _⟩ := h3 cs hcomp hv
      rw [e1] at h
      cases h
      exact ⟨e2.trans hf'.symm, e3 rfl, e4.trans hn'.symm, e5⟩

/-- C91: however often, and with whatever minima, a trained LRNounExtractor_v2 has been asked to extract (resetting its graph, the default), the next call
    of `extract` does exactly what it would have done right after training - the nouns returned, the compounds known, the exception if it
    raises - and `predict` answers as after training. -/
theorem C91_v2 (p : V2.Params) (s s' : V2.State) (c : EC.State) (hw : c.counter.WF) (hp : ∀ kv ∈ c.counter, 0 < kv.2)
    (hsum : c.countSum = Dict.sumI c.counter) (htrain : V2.trainWithEojeolCounter p s c = .ok s') (entLt : List Int → Rat → Bool)
    (calls : List V2Call) (hc : ∀ k ∈ calls, ∀ i l, (k.enum i l).Perm l) (t : V2.State) (ht : afterV2 p entLt s' calls = .ok t) :
    (∀ enum m f r, V2.extract p entLt enum t m f r = V2.extract p entLt enum s' m f r) ∧ ∀ w m, V2.predict p t w m = V2.predict p s' w m := by
  have key : ∀ (calls : List V2Call) (u : V2.State), SameInput p u s' → (∀ k ∈ calls, ∀ i l, (k.enum i l).Perm l) →
      afterV2 p entLt u calls = .ok t → SameInput p t s' := by
    intro calls
    induction calls with
    | nil => intro u hu _ h; cases h; exact hu
    | cons k ks ih =>
      intro u hu hk h
      unfold afterV2 at h
      rw [List.foldlM_cons, extract_same hu] at h
      cases he : V2.extract p entLt k.enum s' k.minScore k.minFrequency true with
      | error e => rw [he] at h; cases h
      | ok r =>
        rw [he] at h
        obtain ⟨u', out⟩ := r
        exact ih u' (extract_keeps hw hp hsum htrain (hk k (by simp)) he) (fun j hj => hk j (by simp [hj])) h
  have hs := key calls s' ⟨rfl, rfl, rfl, fun _ => ⟨rfl, rfl⟩⟩ hc ht
  refine ⟨fun enum m f r => extract_same hs entLt enum m f r, fun w m => ?_⟩
  unfold V2.predict
  rw [hs.lrgraph, hs.feats]

/-! ### EomiExtractor -/

/-- C91: an EomiExtractor that has extracted before (it then only remembers its result) extracts as if it had not. -/
theorem C91_eomis (s s' : Eomi.State) (lMax rMax : Int) (c : Dict Str Int) (hw : c.WF) (hf : V2.Fresh c s.lrgraph)
    (hg : s.lrgraph.lr = LR.lrOfCounter lMax rMax c) (enumS : List Str → List Str) (hS : ∀ l, (enumS l).Perm l)
    (enumL : List (Str × Str) → List (Str × Str)) (hL : ∀ l, (enumL l).Perm l) (condition : Str) (m : Rat) (f : Int) (r : Bool) (out : Dict Str (Int × Rat))
    (h : Eomi.extract enumS enumL s condition m f r = .ok (s', out)) :
    s'.eomis = some out ∧ ∀ enumS' enumL' condition' m' f' r',
      Eomi.extract enumS' enumL' s' condition' m' f' r' = Eomi.extract enumS' enumL' s condition' m' f' r' := by
  obtain ⟨_, _, _, _, rfl⟩ := (C59_extract s lMax rMax c hw hf hg enumS hS enumL hL condition m f r).2 s' out h
  exact ⟨rfl, fun _ _ _ _ _ _ => rfl⟩

/-! ### PredicatorExtractor -/

private theorem filtered_occurrences {rd rd' : Str → List (Str × Str)} {words : List Str} {e : Str}
    (h : ∀ w ∈ words, (rd w).Nodup ∧ (rd' w).Nodup ∧ ∀ p, p.2 = e → (p ∈ rd' w ↔ p ∈ rd w)) : occurrences rd' words e = occurrences rd words e := by
  unfold occurrences
  induction words with
  | nil => rfl
  | cons w ws ih =>
    rw [List.flatMap_cons, List.flatMap_cons, ih (fun x hx => h x (by simp [hx]))]
    obtain ⟨h1, h2, h3⟩ := h w (by simp)
    congr 2
    rw [List.countP_eq_length_filter, List.countP_eq_length_filter]
    apply List.Perm.length_eq
    rw [List.perm_ext_iff_of_nodup (h2.filter _) (h1.filter _)]
    intro p
    rw [List.mem_filter, List.mem_filter, decide_eq_true_iff]
    constructor
    · rintro ⟨a, b⟩; exact ⟨(h3 p b).1 a, b⟩
    · rintro ⟨a, b⟩; exact ⟨(h3 p b).2 a, b⟩

/-- C91: a PredicatorExtractor asked to extract a second time from the same words. The call succeeds like the first, gives up no further ending, and
    a word reported by both calls has the same count and the same readings in both, among the adjectives and among the verbs. (Which words are
    reported can differ, see `C91_predicators_violation`.) -/
theorem C91_predicators (enum enum' : List (Str × Str) → List (Str × Str)) (hen : ∀ l, (enum l).Perm l) (hen' : ∀ l, (enum' l).Perm l) (s s' : Pred.State)
    (given cands : List (Str × Int)) (m : Int) (hc : PredCands s given m cands) (hw : Dict.WF cands) (hs : ∀ x ∈ s.stems, x ∈ s.adjectives ∨ x ∈ s.verbs)
    (adj vb : Dict Str Pred.Entry) (h : Pred.extract enum s given m = .ok (s', adj, vb)) :
    ∃ s'' adj' vb', Pred.extract enum' s' given m = .ok (s'', adj', vb') ∧ (∀ e, e ∈ s''.eomis ↔ e ∈ s'.eomis) ∧
      ∀ w, (Dict.get? adj w ≠ none ∨ Dict.get? vb w ≠ none) → (Dict.get? adj' w ≠ none ∨ Dict.get? vb' w ≠ none) →
        (∀ c ls, Dict.get? adj w = some (c, ls) → ∃ ls', Dict.get? adj' w = some (c, ls') ∧ ls'.Perm ls) ∧
        (Dict.get? adj w = none → Dict.get? adj' w = none) ∧
        (∀ c ls, Dict.get? vb w = some (c, ls) → ∃ ls', Dict.get? vb' w = some (c, ls') ∧ ls'.Perm ls) ∧
        (Dict.get? vb w = none → Dict.get? vb' w = none) := by
  obtain ⟨rd, R⟩ := C56_extract enum hen s s' given cands m hc hw hs adj vb h
  obtain ⟨r1, r2, r3, r4, r5, r6⟩ := R.rest
  have hc' : PredCands s' given m cands := by unfold PredCands; rw [r6]; exact hc
  have hs' : ∀ x ∈ s'.stems, x ∈ s'.adjectives ∨ x ∈ s'.verbs := by rw [r3, r4, r5]; exact hs
  obtain ⟨a, _, hst, _⟩ := pred_extract_split hc h
  have hvb : s'.verbose = s.verbose ∧ s'.countOfEojeols = s.countOfEojeols := by rw [hst]; exact ⟨rfl, rfl⟩
  have htot := (C56_total enum hen s given cands m hc hw).1 ⟨_, h⟩
  obtain ⟨⟨s'', adj', vb'⟩, h'⟩ := (C56_total enum' hen' s' given cands m hc' hw).2 (by rw [r1, r2, hvb.1, hvb.2]; exact htot)
  obtain ⟨rd', R'⟩ := C56_extract enum' hen' s' s'' given cands m hc' hw hs' adj' vb' h'
  have hrd : ∀ w ∈ Dict.keys cands, ∀ p, p ∈ rd' w ↔ p ∈ rd w ∧ p.2 ∈ s'.eomis := by
    intro w hwk p
    rw [(R'.readings w hwk).mem, (R.readings w hwk).mem, r1, r2, r3]
    unfold Spec.Reading
    constructor
    · rintro ⟨x, y, z, u⟩; exact ⟨⟨x, y, ((R.eomis _).1 z).1, u⟩, z⟩
    · rintro ⟨⟨x, y, z, u⟩, v⟩; exact ⟨x, y, v, u⟩
  have hocc : ∀ e ∈ s'.eomis, occurrences rd' (Dict.keys cands) e = occurrences rd (Dict.keys cands) e := by
    intro e he
    apply filtered_occurrences
    intro w hwk
    refine ⟨(R.readings w hwk).nodup, (R'.readings w hwk).nodup, fun p hp => ?_⟩
    rw [hrd w hwk p]
    exact ⟨fun x => x.1, fun x => ⟨x, hp ▸ he⟩⟩
  have hmemocc : ∀ w ∈ Dict.keys cands, ∀ p ∈ rd w, w ∈ occurrences rd (Dict.keys cands) p.2 := by
    intro w hwk p hp
    unfold occurrences
    rw [List.mem_flatMap]
    refine ⟨w, hwk, ?_⟩
    rw [List.mem_replicate]
    refine ⟨?_, rfl⟩
    have : 0 < (rd w).countP (fun q => decide (q.2 = p.2)) := List.countP_pos_iff.2 ⟨p, hp, by simp⟩
    omega
  have hkept : ∀ w ∈ Dict.keys cands, ∀ p, (p ∈ rd' w ∧ ¬ TakenBack s'.nouns p.2 (occurrences rd' (Dict.keys cands) p.2) w) ↔
      (p ∈ rd w ∧ ¬ TakenBack s.nouns p.2 (occurrences rd (Dict.keys cands) p.2) w) := by
    intro w hwk p
    rw [hrd w hwk p, r1]
    constructor
    · rintro ⟨⟨x, y⟩, z⟩
      rw [hocc _ y] at z
      exact ⟨x, z⟩
    · rintro ⟨x, z⟩
      have he : p.2 ∈ s'.eomis := by
        rw [R.eomis]
        refine ⟨(((R.readings w hwk).mem p).1 x).2.2.1, fun hg => z ⟨hmemocc w hwk p x, Or.inl hg⟩⟩
      rw [hocc _ he]
      exact ⟨⟨x, he⟩, z⟩
  refine ⟨s'', adj', vb', h', ?_, ?_⟩
  · intro e
    rw [R'.eomis]
    constructor
    · exact fun x => x.1
    · intro he
      refine ⟨he, fun hg => ?_⟩
      rw [hocc e he, r1] at hg
      exact ((R.eomis e).1 he).2 hg
  · intro w h1 h2
    have hwk : w ∈ Dict.keys cands := by
      apply Classical.byContradiction
      intro hn
      obtain ⟨x, y⟩ := R.other w hn
      rcases h1 with h1 | h1
      · exact h1 x
      · exact h1 y
    obtain ⟨⟨w', c⟩, hm, rfl⟩ := List.mem_map.1 hwk
    dsimp only at *
    rcases R.word w' c hm with ⟨x, y⟩ | ⟨as, vs, k1, k2, k3, k4, k5, k6⟩
    · rcases h1 with h1 | h1
      · exact absurd x h1
      · exact absurd y h1
    · rcases R'.word w' c hm with ⟨x, y⟩ | ⟨as', vs', l1, l2, l3, l4, l5, l6⟩
      · rcases h2 with h2 | h2
        · exact absurd x h2
        · exact absurd y h2
      · have hmem : ∀ p, p ∈ as' ++ vs' ↔ p ∈ as ++ vs := fun p => by rw [l1 p, k1 p]; exact hkept w' hwk p
        have ha : as'.Perm as := by
          rw [List.perm_ext_iff_of_nodup (List.nodup_append.1 l2).1 (List.nodup_append.1 k2).1]
          intro p
          constructor
          · intro hp
            rcases List.mem_append.1 ((hmem p).1 (List.mem_append_left _ hp)) with x | x
            · exact x
            · exact absurd (r5 ▸ k4 p x) (l3 p hp)
          · intro hp
            rcases List.mem_append.1 ((hmem p).2 (List.mem_append_left _ hp)) with x | x
            · exact x
            · exact absurd (r5 ▸ l4 p x) (k3 p hp)
        have hv : vs'.Perm vs := by
          rw [List.perm_ext_iff_of_nodup (List.nodup_append.1 l2).2.1 (List.nodup_append.1 k2).2.1]
          intro p
          constructor
          · intro hp
            rcases List.mem_append.1 ((hmem p).1 (List.mem_append_right _ hp)) with x | x
            · exact absurd (r5 ▸ l4 p hp) (k3 p x)
            · exact x
          · intro hp
            rcases List.mem_append.1 ((hmem p).2 (List.mem_append_right _ hp)) with x | x
            · exact absurd (k4 p hp) (r5 ▸ l3 p x)
            · exact x
        rw [k5, k6, l5, l6]
        refine ⟨?_, ?_, ?_, ?_⟩
        · intro c' ls hls
          split at hls
          · cases hls
          · rename_i hne
            cases hls
            refine ⟨as', ?_, ha⟩
            rw [if_neg]
            rintro rfl
            exact hne ha.symm.eq_nil
        · intro hls
          split at hls
          · rename_i he
            subst he
            rw [if_pos ha.eq_nil]
          · cases hls
        · intro c' ls hls
          split at hls
          · cases hls
          · rename_i hne
            cases hls
            refine ⟨vs', ?_, hv⟩
            rw [if_neg]
            rintro rfl
            exact hne hv.symm.eq_nil
        · intro hls
          split at hls
          · rename_i he
            subst he
            rw [if_pos hv.eq_nil]
          · cases hls

/-- a trained extractor and two earlier calls that succeed -/
example : (match V2.trainWithEojeolCounter {} { feats := ⟨["는".toList], [], []⟩ } ⟨[("학교는".toList, 3), ("집은".toList, 1)], 4, 0⟩ with
    | .ok s => match afterV2 {} (fun _ _ => false) s [⟨fun _ l => l, 3/10, 1⟩, ⟨fun _ l => l.reverse, 1/2, 2⟩] with | .ok t => t.lrgraph == s.lrgraph | .error _ => false
    | .error _ => false) = true := by decide +kernel

private def twice (enum : List (Str × Str) → List (Str × Str)) (s : Pred.State) (ws : List (Str × Int)) : Option (List Str × List Str) :=
  match Pred.extract enum s ws with
  | .ok (s', _, vb) => match Pred.extract enum s' ws with
    | .ok (_, _, vb') => some (Dict.keys vb, Dict.keys vb')
    | .error _ => none
  | .error _ => none

private def sanda : Pred.State :=
  Pred.construct [] [] [] [] ["산다".toList] (some ["는".toList]) (some ["예쁘".toList]) (some (["먹", "사", "살", "산", "뛰"].map (·.toList)))
    (some (["ㄴ다", "다"].map (·.toList))) false false

/-- C91, finding: the same call made twice reports different words: 산다 (산+다) is lost by the first call and reported by the second, whatever the order of the readings. -/
theorem C91_predicators_violation : ∀ enum ∈ [id, List.reverse],
    twice enum sanda [("산다".toList, 3), ("먹다".toList, 4), ("뛰다".toList, 4)] =
      some (["먹다".toList, "뛰다".toList], ["산다".toList, "먹다".toList, "뛰다".toList]) := by
  decide +kernel

end Props
