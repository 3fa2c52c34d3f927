import Verif.Props.C21Checkpoints
import Verif.Props.C49
import Verif.Props.C21_C23
/-! C54: what `LRNounExtractor_v2` is trained on, and C49: what `decompose_compound` uses after an extraction. -/
namespace Props
open Py Nested

/-- the text in which the eojeols are counted: the normalised sentences exactly when `ensure_normalized` is set -/
def v2Text (p : V2.Params) (s : Str) : Str := if p.ensureNormalized = true then Normalizer.normalizeSentForLrgraph s else s

private theorem preprocess_eq (p : V2.Params) : V2.preprocess p = v2Text p := by
  funext s
  unfold V2.preprocess v2Text
  cases p.ensureNormalized <;> rfl

/-- C54: training with sentences (no filtering checkpoint in the way): the right parts of `l` in the graph are the `r` such
    that `l ++ r` is an eojeol of the sentences, within the length limits and frequent enough, with the number of its
    occurrences; the number of eojeols reported adds these up. -/
theorem C54_graph (p : V2.Params) (hl : 1 < p.maxLeft) (hr : 0 < p.maxRight) (s : V2.State) (sents : List Str) (hne : sents ≠ []) (mf : Int)
    (hno : p.checkpoint ≤ 0 ∨ mf ≤ 1 ∨ (sents.length : Int) ≤ p.checkpoint) :
    ∃ s' g, V2.trainWithSentences p s sents mf = .ok s' ∧ s'.lrgraph = some g ∧ s'.feats = s.feats ∧
      (∀ l r n, (r, n) ∈ LR.getR g l (-1) ↔ l ≠ [] ∧ (l.length : Int) ≤ p.maxLeft ∧ (r.length : Int) ≤ p.maxRight ∧
        n = ((eojeolsOf (v2Text p) sents).count (l ++ r) : Int) ∧ 1 ≤ n ∧ mf ≤ n) ∧
      s'.numEojeols = (((eojeolsOf (v2Text p) sents).dedup.filter (fun e => decide ((e.length : Int) ≤ p.maxLeft + p.maxRight) &&
        decide (mf ≤ ((eojeolsOf (v2Text p) sents).count e : Int)))).map (fun e => ((eojeolsOf (v2Text p) sents).count e : Int))).sum := by
  obtain ⟨c, s', hc, hw, hp, hsum, ht, ht'⟩ := (C54_sentences p s sents mf).2 hne hl hr
  obtain ⟨g, hg, hfe, hnum, hfr, hlr⟩ := trained hw hp hsum ht
  obtain ⟨c', hc', _, hget, hmem⟩ := C21_exact (V2.counterParams p mf) sents hne hno
  rw [hc] at hc'
  cases hc'
  have hpre : (V2.counterParams p mf).preprocess = v2Text p := preprocess_eq p
  have hml : (V2.counterParams p mf).maxLength = p.maxLeft + p.maxRight := rfl
  have hmc : (V2.counterParams p mf).minCount = mf := rfl
  rw [hpre, hml, hmc] at hmem
  refine ⟨s', g, ht', hg, hfe, ?_, ?_⟩
  · intro l r n
    rw [LR.mem_getR_all hfr.cons.inv, hlr, LR.get2_lrOfCounter _ _ hw]
    have : Dict.get? c.counter (l ++ r) = some n ↔ (l ++ r, n) ∈ c.counter := ⟨Dict.mem_of_get?, Dict.get?_of_mem hw⟩
    rw [this, hmem]
    constructor
    · rintro ⟨⟨h1, h2, h3⟩, h4, _, h5, h6⟩
      have := List.count_pos_iff.2 h4
      exact ⟨h1, h2, h3, h5, by omega, h6⟩
    · rintro ⟨h1, h2, h3, h4, h5, h6⟩
      refine ⟨⟨h1, h2, h3⟩, List.count_pos_iff.1 (by omega), ?_, h4, h6⟩
      rw [List.length_append]; omega
  · rw [hnum]
    have hperm : c.counter.Perm (((eojeolsOf (v2Text p) sents).dedup.filter (fun e => decide ((e.length : Int) ≤ p.maxLeft + p.maxRight) &&
        decide (mf ≤ ((eojeolsOf (v2Text p) sents).count e : Int)))).map (fun e => (e, ((eojeolsOf (v2Text p) sents).count e : Int)))) := by
      rw [List.perm_ext_iff_of_nodup]
      · rintro ⟨e, n⟩
        rw [hmem, List.mem_map]
        constructor
        · rintro ⟨h1, h2, h3, h4⟩
          subst h3
          exact ⟨e, by simp [h1, h2, h4], rfl⟩
        · rintro ⟨e', h1, h2⟩
          cases h2
          rw [List.mem_filter, List.mem_dedup] at h1
          simp only [Bool.and_eq_true, decide_eq_true_eq] at h1
          exact ⟨h1.1, h1.2.1, rfl, h1.2.2⟩
      · exact List.Nodup.of_map _ hw
      · refine List.Nodup.map ?_ ((List.nodup_dedup _).filter _)
        intro a b h; exact congrArg Prod.fst h
    unfold Dict.sumI Dict.values
    rw [(hperm.map _).sum_eq, List.map_map]
    rfl

/-- C54: with a filtering checkpoint every `cp` sentences a count lies at most `(min_count − 1)` per checkpoint below the number
    of occurrences, and never above it. -/
theorem C54_graph_checkpoints (p : V2.Params) (hl : 1 < p.maxLeft) (hr : 0 < p.maxRight) (s : V2.State) (sents : List Str) (hne : sents ≠ [])
    (mf : Int) (hmf : 1 < mf) (cp : Nat) (hcp : 0 < cp) (hp : p.checkpoint = cp) :
    ∃ s' g, V2.trainWithSentences p s sents mf = .ok s' ∧ s'.lrgraph = some g ∧
      ∀ l r, l ≠ [] → (l.length : Int) ≤ p.maxLeft → (r.length : Int) ≤ p.maxRight →
        (∀ n, (r, n) ∈ LR.getR g l (-1) → mf ≤ n ∧ n ≤ ((eojeolsOf (v2Text p) sents).count (l ++ r) : Int) ∧
          ((eojeolsOf (v2Text p) sents).count (l ++ r) : Int) - (mf - 1) * (((sents.length - 1) / cp + 1 : Nat) : Int) ≤ n) ∧
        ((∀ n, (r, n) ∉ LR.getR g l (-1)) → ((eojeolsOf (v2Text p) sents).count (l ++ r) : Int) ≤ (mf - 1) * (((sents.length - 1) / cp + 1 : Nat) : Int)) := by
  obtain ⟨c, s', hc, hw, hpos, hsum, ht, ht'⟩ := (C54_sentences p s sents mf).2 hne hl hr
  obtain ⟨g, hg, hfe, hnum, hfr, hlr⟩ := trained hw hpos hsum ht
  obtain ⟨c', hc', _, hbd, hmem⟩ := C21_bounds (V2.counterParams p mf) sents hne
  rw [hc] at hc'
  cases hc'
  obtain ⟨c', hc', hloss⟩ := C21_loss (V2.counterParams p mf) sents hne hmf cp hcp hp
  rw [hc] at hc'
  cases hc'
  have hpre : (V2.counterParams p mf).preprocess = v2Text p := preprocess_eq p
  have hml : (V2.counterParams p mf).maxLength = p.maxLeft + p.maxRight := rfl
  have hmc : (V2.counterParams p mf).minCount = mf := rfl
  rw [hpre] at hbd hloss
  rw [hml, hmc] at hloss hmem
  refine ⟨s', g, ht', hg, ?_⟩
  intro l r h1 h2 h3
  have hlen : ((l ++ r).length : Int) ≤ p.maxLeft + p.maxRight := by rw [List.length_append]; omega
  have hm : ∀ n, (r, n) ∈ LR.getR g l (-1) ↔ Dict.get? c.counter (l ++ r) = some n := by
    intro n
    rw [LR.mem_getR_all hfr.cons.inv, hlr, LR.get2_lrOfCounter _ _ hw]
    exact ⟨fun h => h.2, fun h => ⟨⟨h1, h2, h3⟩, h⟩⟩
  constructor
  · intro n hn
    have hn := (hm n).1 hn
    have hget : EC.getitem c (l ++ r) = n := by
      unfold EC.getitem Dict.getD; rw [hn]; rfl
    have a := (hbd (l ++ r)).2
    have b := hloss (l ++ r) hlen
    rw [hget] at a b
    exact ⟨(hmem _ _ (Dict.mem_of_get? hn)).1, a, b⟩
  · intro hn
    have h0 : Dict.get? c.counter (l ++ r) = none := by
      cases h : Dict.get? c.counter (l ++ r) with
      | none => rfl
      | some n => exact absurd ((hm n).2 h) (hn n)
    have hget : EC.getitem c (l ++ r) = 0 := by
      unfold EC.getitem Dict.getD; rw [h0]; rfl
    have b := hloss (l ++ r) hlen
    rw [hget] at b
    omega

/-- C54: the graph exactly, whatever the filtering checkpoint: the right parts of `l` are the `r` within the length limits for which the count of `l ++ r` that
    is forgotten whenever it is below `min_count` at a checkpoint (`forgetful`) ends up frequent enough. -/
theorem C54_graph_exact (p : V2.Params) (hl : 1 < p.maxLeft) (hr : 0 < p.maxRight) (s : V2.State) (sents : List Str) (hne : sents ≠ []) (mf : Int) :
    ∃ s' g, V2.trainWithSentences p s sents mf = .ok s' ∧ s'.lrgraph = some g ∧ s'.feats = s.feats ∧
      ∀ l r n, (r, n) ∈ LR.getR g l (-1) ↔ l ≠ [] ∧ (l.length : Int) ≤ p.maxLeft ∧ (r.length : Int) ≤ p.maxRight ∧
        n = forgetful mf p.checkpoint.toNat 0 0 (sents.map (fun t => (splitWs (v2Text p t)).count (l ++ r))) ∧ 1 ≤ n ∧ mf ≤ n := by
  obtain ⟨c, s', hc, hw, hpos, hsum, ht, ht'⟩ := (C54_sentences p s sents mf).2 hne hl hr
  obtain ⟨g, hg, hfe, hnum, hfr, hlr⟩ := trained hw hpos hsum ht
  refine ⟨s', g, ht', hg, hfe, ?_⟩
  intro l r n
  rw [LR.mem_getR_all hfr.cons.inv, hlr, LR.get2_lrOfCounter _ _ hw]
  obtain ⟨c', hc', hx⟩ := C21_checkpoints (V2.counterParams p mf) sents hne (l ++ r)
  rw [hc] at hc'
  cases hc'
  have hpre : (V2.counterParams p mf).preprocess = v2Text p := preprocess_eq p
  have hml : (V2.counterParams p mf).maxLength = p.maxLeft + p.maxRight := rfl
  have hmc : (V2.counterParams p mf).minCount = mf := rfl
  have hcp : (V2.counterParams p mf).checkpoint = p.checkpoint := rfl
  dsimp only at hx
  rw [hpre, hml, hmc, hcp] at hx
  generalize forgetful mf p.checkpoint.toNat 0 0 (sents.map (fun t => (splitWs (v2Text p t)).count (l ++ r))) = x at hx ⊢
  have hg2 : ∀ n, Dict.get? c.counter (l ++ r) = some n ↔ EC.getitem c (l ++ r) = n ∧ 1 ≤ n := by
    intro n
    unfold EC.getitem Dict.getD
    cases h : Dict.get? c.counter (l ++ r) with
    | none => simp; omega
    | some k =>
      have := hpos _ (Dict.mem_of_get? h)
      constructor
      · intro e; cases e; exact ⟨rfl, this⟩
      · rintro ⟨e, _⟩; exact congrArg some e
  rw [hg2, hx]
  constructor
  · rintro ⟨⟨h1, h2, h3⟩, h4, h5⟩
    split at h4
    · rename_i h; exact ⟨h1, h2, h3, h4.symm, h5, by omega⟩
    · omega
  · rintro ⟨h1, h2, h3, h4, h5, h6⟩
    refine ⟨⟨h1, h2, h3⟩, ?_, h5⟩
    rw [if_pos ⟨by rw [List.length_append]; omega, by omega⟩, h4]

/-- C49: after an extraction, `decompose_compound` knows the words scored above the threshold, of more than one character,
    each weighted by its length; with `extract_compound=False` it knows what it knew before. -/
theorem C49_decomposer (p : V2.Params) (s s' : V2.State) (c : EC.State) (hw : c.counter.WF) (hp : ∀ kv ∈ c.counter, 0 < kv.2)
    (hsum : c.countSum = Dict.sumI c.counter) (htrain : V2.trainWithEojeolCounter p s c = .ok s')
    (hblank : ∀ e ∈ Dict.keys c.counter, ∀ ch ∈ e, isSpace ch = false)
    (entLt : List Int → Rat → Bool) (enum : Nat → List Str → List Str) (henum : ∀ i l, (enum i l).Perm l) (m f : Rat)
    (reset : Bool) (s'' : V2.State) (nouns : Dict Str (Rat × Rat)) (hex : V2.extract p entLt enum s' m f reset = .ok (s'', nouns)) :
    (p.extractCompound = false → s''.decomposer = s'.decomposer ∧ s''.components = s'.components) ∧
    (p.extractCompound = true → ∃ d known, V2Table p s.feats c.counter m d ∧ s''.decomposer = some known ∧
      ∀ w y, Dict.get? known w = some y ↔ IsNoun49 d m w ∧ y = (w.length : Rat)) := by
  obtain ⟨g', hg', _, hnum, hfr, hlr⟩ := trained hw hp hsum htrain
  obtain ⟨d, g, hg, htab, hE⟩ := C54_extract p s s' c hw hp hsum htrain entLt enum henum m f reset
  have : g = g' := Option.some.inj (hg.symm.trans hg')
  subst this
  obtain ⟨comp, hcomp⟩ : ∃ comp, comp = (if p.extractCompound then (V2.extractCompounds s.feats g d m).map (·.compounds) else .ok []) := ⟨_, rfl⟩
  obtain ⟨h1, h2, h3⟩ := hE comp hcomp
  cases comp with
  | error e => rw [h1 e rfl] at hex; cases hex
  | ok cs =>
    have hv : ¬ (p.verbose = true ∧ Dict.sumI c.counter = 0) := by
      rintro ⟨h, h'⟩
      have := h2 cs rfl h h'
      rw [hex] at this; cases this
    obtain ⟨s2, n2, h4, _, _, _, _, _, _, _, _, h5, h6⟩ := h3 cs rfl hv
    rw [hex] at h4
    have e1 : s'' = s2 := congrArg Prod.fst (Except.ok.inj h4)
    subst e1
    refine ⟨h6.1, fun hx => ?_⟩
    obtain ⟨C, hC, hd, _⟩ := h5 hx
    obtain ⟨C', hC', hdec, _⟩ := (C49_compounds s.feats g d htab.wf m).2 g.lr hfr.origin hfr.cons.inv.lr.outer (by
        intro l hl
        obtain ⟨⟨l', t⟩, hm, e0⟩ := List.mem_map.1 hl
        dsimp only at e0
        subst e0
        have htne := hfr.cons.inv.lr.nonempty _ _ hm
        obtain ⟨⟨r, n⟩, hrm⟩ := List.exists_mem_of_ne_nil _ htne
        have hg2 : get2 g.lr l' r = some n := by
          unfold get2
          rw [Dict.get?_of_mem hfr.cons.inv.lr.outer hm]
          exact Dict.get?_of_mem (hfr.cons.inv.lr.inner _ _ hm) hrm
        rw [hlr, LR.get2_lrOfCounter _ _ hw] at hg2
        have hk : l' ++ r ∈ Dict.keys c.counter := (Dict.isSome_get?_iff _ _).1 (by rw [hg2.2]; rfl)
        have hsp := hblank _ hk
        exact v2_splitWs_ne_nil hg2.1.1 (fun ch hch => hsp ch (List.mem_append_left _ hch)))
    rw [hC] at hC'
    cases hC'
    exact ⟨d, C.decomposer, htab, hd, hdec⟩

/-! ### concrete cases -/

/-- `ensure_normalized=True` normalises, `False` does not: "학교!!" is one eojeol of four characters or the eojeol 학교 -/
private def exGraph (b : Bool) : PyM (List (Str × Int) × Int) :=
  match V2.trainWithSentences { ensureNormalized := b } {} ["학교는 학교!!".toList, "학교는".toList] with
  | .ok s => match s.lrgraph with
    | some g => .ok (LR.getR g "학교".toList (-1), s.numEojeols)
    | none => .error .attributeError
  | .error e => .error e
example : exGraph false = .ok ([("는".toList, 2), ("!!".toList, 1)], 3) ∧ exGraph true = .ok ([("는".toList, 2), ([], 1)], 3) := by
  constructor <;> decide +kernel

private def exDec (b : Bool) : PyM (List (Str × Rat)) :=
  match V2.trainWithSentences { extractCompound := b } { feats := ⟨["는".toList, "를".toList], [], []⟩ } ["학교는 학교를 병는 병를".toList] with
  | .ok s => match V2.extract { extractCompound := b } (fun _ _ => false) (fun _ l => l) s with
    | .ok (s, _) => .ok (s.decomposer.getD [("없음".toList, 0)])
    | .error e => .error e
  | .error e => .error e
example : exDec true = .ok [("학교".toList, 2)] ∧ exDec false = .ok [("없음".toList, 0)] := by
  constructor <;> decide +kernel

end Props
