import Verif.Props.C93
import Verif.Py.DictInt
/-! C102: what `PredicatorExtractor` learns does not depend on the order of the sentences or of the elements of sets. -/
set_option linter.unusedVariables false
set_option linter.unusedSimpArgs false
namespace Props
open Py Nested

private theorem split_congr {a b : Int} {c c' : Dict Str Int} (h : ∀ k, Dict.get? c k = Dict.get? c' k) : EomiSplit a b c = EomiSplit a b c' := by
  funext l r n
  unfold EomiSplit
  rw [h]

private theorem eomi_mono {c c' : Dict Str Int} (h : ∀ k, Dict.get? c k = Dict.get? c' k) {stems nouns : List Str} {t : Pred.Thresholds} {y : Str}
    (hy : EomiLearnt c stems nouns t y) : EomiLearnt c' stems nouns t y := by
  obtain ⟨d, x, ht, he, hf⟩ := hy
  have hs : EomiSplit 10 9 c = EomiSplit 10 9 c' := split_congr h
  refine ⟨d, x, ⟨ht.wf, ?_, ?_⟩, ?_, hf⟩
  · have := ht.cands
    rwa [hs] at this
  · have := ht.entry
    unfold EomiTaken at this ⊢
    rwa [hs] at this
  · unfold EomiEntry Reading at he ⊢
    rwa [hs] at he

private theorem pieces_congr {c c' : Dict Str Int} (h : ∀ k, Dict.get? c k = Dict.get? c' k) {stems eomis eomis' : List Str} (he : ∀ y, y ∈ eomis ↔ y ∈ eomis') :
    FormPieces 10 9 c stems eomis = FormPieces 10 9 c' stems eomis' := by
  funext l r
  unfold FormPieces InGraph
  rw [split_congr h]
  simp only [he]

private theorem stem_mono {c c' : Dict Str Int} (h : ∀ k, Dict.get? c k = Dict.get? c' k) {stems eomis eomis' : List Str} (he : ∀ y, y ∈ eomis ↔ y ∈ eomis')
    {t : Pred.Thresholds} {y : Str} (hy : StemLearnt c stems eomis t y) : StemLearnt c' stems eomis' t y := by
  obtain ⟨ext, surf, x, h1, h2, h3⟩ := hy
  have hL : KnownL 10 9 c stems eomis = KnownL 10 9 c' stems eomis' := by funext l; unfold KnownL; rw [pieces_congr h he]
  have hR : KnownR 10 9 c stems eomis = KnownR 10 9 c' stems eomis' := by funext l; unfold KnownR; rw [pieces_congr h he]
  rw [hL, hR] at h1 h2
  refine ⟨ext, surf, x, ?_, h2, ?_⟩
  · unfold StemAccepted StemCandidate RowOf at h1 ⊢
    rwa [split_congr h] at h1
  · unfold StemEntry StemReading at h3 ⊢
    rw [split_congr h] at h3
    simpa only [he] using h3

private theorem eojeols_perm (s : Pred.State) {sents sents' : List Str} (hp : sents.Perm sents') : (predEojeols s sents).Perm (predEojeols s sents') := hp.flatMap_right _

private theorem readings_perm {nouns josas stems stems' eomis eomis' : List Str} (hs : ∀ y, y ∈ stems ↔ y ∈ stems') (he : ∀ y, y ∈ eomis ↔ y ∈ eomis') {w : Str}
    {ls ls' : List (Str × Str)} (h : Spec.Readings nouns josas stems eomis w ls) (h' : Spec.Readings nouns josas stems' eomis' w ls') : ls.Perm ls' := by
  rw [List.perm_ext_iff_of_nodup h.nodup h'.nodup]
  intro p
  rw [h.mem, h'.mem]
  unfold Spec.Reading
  simp only [hs, he]

private theorem givenup_congr {nouns : List Str} {e : Str} {occ occ' : List Str} (h : occ.Perm occ') : Spec.GivenUp nouns e occ ↔ Spec.GivenUp nouns e occ' := by
  unfold Spec.GivenUp Spec.Suspicious
  rw [h.countP_eq, h.countP_eq]
  simp only [h.mem_iff]

/-- C102: `PredicatorExtractor.train_extract`, with or without learning, on the same sentences in another order, its sets enumerated in another order: it succeeds or raises alike;
    it learns the same endings and stems, gives up the same endings, and reports the same coverage. -/
theorem C102_predicator (entLt : List Int → Rat → Bool) (hent : ∀ cs x, entLt cs x = true ↔ countEntropy cs < (x : ℝ))
    (enumS enumS' : List Str → List Str) (hS : ∀ l, (enumS l).Perm l) (hS' : ∀ l, (enumS' l).Perm l)
    (enumL enumL' : List (Str × Str) → List (Str × Str)) (hL : ∀ l, (enumL l).Perm l) (hL' : ∀ l, (enumL' l).Perm l)
    (t : Pred.Thresholds) (doEomi doStem : Bool) (hm : doStem = true → 0 < t.stemScore) (s : Pred.State) (sents sents' : List Str) (hp : sents.Perm sents') (m f : Int) :
    ((∃ r, Pred.trainExtract entLt enumS enumL t doEomi doStem s (.sentences sents) m [] f = .ok r) ↔
      ∃ r, Pred.trainExtract entLt enumS' enumL' t doEomi doStem s (.sentences sents') m [] f = .ok r) ∧
    ∀ s1 adj vb s2 adj' vb', Pred.trainExtract entLt enumS enumL t doEomi doStem s (.sentences sents) m [] f = .ok (s1, adj, vb) →
      Pred.trainExtract entLt enumS' enumL' t doEomi doStem s (.sentences sents') m [] f = .ok (s2, adj', vb') →
      (∀ y, y ∈ s1.eomis ↔ y ∈ s2.eomis) ∧ (∀ y, y ∈ s1.stems ↔ y ∈ s2.stems) ∧ s1.numCovered = s2.numCovered ∧ s1.countCovered = s2.countCovered := by
  have he := eojeols_perm s hp
  refine ⟨?_, ?_⟩
  · rw [C93_succeeds entLt hent enumS hS enumL hL t doEomi doStem hm, C93_succeeds entLt hent enumS' hS' enumL' hL' t doEomi doStem hm]
    have h0 : sents ≠ [] ↔ sents' ≠ [] := not_congr ⟨fun h => by subst h; exact List.perm_nil.1 hp.symm, fun h => by subst h; exact List.perm_nil.1 hp⟩
    rw [h0]
    simp only [he.mem_iff, he.count_eq]
  · intro s1 adj vb s2 adj' vb' h h'
    obtain ⟨t1, c, c2, cands, rd, known, a1, a2, a3, a4, a5, a6, a7, a8, a9, a10, a11⟩ := C93_end_to_end entLt hent enumS hS enumL hL t doEomi doStem hm s s1 sents m f adj vb h
    obtain ⟨t2, d, d2, cands', rd', known', b1, b2, b3, b4, b5, b6, b7, b8, b9, b10, b11⟩ :=
      C93_end_to_end entLt hent enumS' hS' enumL' hL' t doEomi doStem hm s s2 sents' m f adj' vb' h'
    have hcd : ∀ w (n : Int), (w, n) ∈ c ↔ (w, n) ∈ d := fun w n => by rw [a3, b3, he.mem_iff, he.count_eq]
    have hg : ∀ k, Dict.get? c k = Dict.get? d k := fun k => Option.ext (fun v => by rw [← Dict.mem_iff_get? a2, ← Dict.mem_iff_get? b2, hcd])
    have hg2 : ∀ k, Dict.get? c2 k = Dict.get? d2 k := fun k => Option.ext (fun v => by rw [a4.2, b4.2, hg])
    have heom : ∀ y, y ∈ t1.eomis ↔ y ∈ t2.eomis := by
      intro y
      rw [a6, b6]
      exact or_congr_right (and_congr_right fun _ => ⟨eomi_mono hg2, eomi_mono (fun k => (hg2 k).symm)⟩)
    have hst : ∀ y, y ∈ t1.stems ↔ y ∈ t2.stems := by
      intro y
      rw [a7, b7]
      exact or_congr_right (and_congr_right fun _ => ⟨stem_mono hg2 heom, stem_mono (fun k => (hg2 k).symm) (fun k => (heom k).symm)⟩)
    have hc : cands.Perm cands' := by
      rw [List.perm_ext_iff_of_nodup (List.Nodup.of_map _ a8) (List.Nodup.of_map _ b8)]
      rintro ⟨w, n⟩
      rw [a9, b9, hcd]
    have hk : (Dict.keys cands).Perm (Dict.keys cands') := hc.map _
    have hrd : ∀ w ∈ Dict.keys cands, (rd w).Perm (rd' w) := by
      intro w hw
      have r1 := a11.readings w hw
      have r2 := b11.readings w (hk.mem_iff.1 hw)
      rw [a5.1, a5.2.1] at r1
      rw [b5.1, b5.2.1] at r2
      exact readings_perm hst heom r1 r2
    have hocc : ∀ e, (Spec.occurrences rd (Dict.keys cands) e).Perm (Spec.occurrences rd' (Dict.keys cands') e) := by
      intro e
      refine List.Perm.trans ?_ (hk.flatMap_right _)
      refine List.Perm.of_eq ?_
      unfold Spec.occurrences
      rw [List.flatMap_def, List.flatMap_def]
      congr 1
      apply List.map_congr_left
      intro w hw
      rw [(hrd w hw).countP_eq]
    have hne : ∀ kv ∈ cands, (rd kv.1 ≠ [] ↔ rd' kv.1 ≠ []) := fun kv hkv => not_congr
      (by rw [← List.length_eq_zero_iff, (hrd kv.1 (List.mem_map_of_mem hkv)).length_eq, List.length_eq_zero_iff])
    have hf : (cands.filter (fun kv => decide (rd kv.1 ≠ []))).Perm (cands'.filter (fun kv => decide (rd' kv.1 ≠ []))) := by
      refine List.Perm.trans (List.Perm.of_eq ?_) (hc.filter _)
      apply List.filter_congr
      intro kv hkv
      exact (@decide_eq_decide _ _ _ _).2 (hne kv hkv)
    refine ⟨fun y => ?_, fun y => ?_, ?_, ?_⟩
    · rw [a11.eomis, b11.eomis, heom, a5.1, b5.1, givenup_congr (hocc y)]
    · have e1 : s1.stems = t1.stems := a11.rest.2.2.1
      have e2 : s2.stems = t2.stems := b11.rest.2.2.1
      rw [e1, e2, hst]
    · rw [a11.num, b11.num, hf.length_eq]
    · rw [a11.count, b11.count, (hf.map _).sum_eq]

/-! ### a concrete case: the ending 네요 is learnt whatever the order -/

private def exPred : Pred.State :=
  Pred.construct [] [] [] [] [] (some ["는".toList]) (some ["예쁘".toList]) (some (["먹", "사", "잡", "웃", "믿"].map (·.toList))) (some ["다".toList]) false false
private def exLearn (sents : List String) : List String :=
  match Pred.trainExtract (fun _ _ => false) id id { numFeatures := 2 } true false exPred (.sentences (sents.map (·.toList))) with
  | .ok (s', _, _) => s'.eomis.map String.ofList
  | .error _ => ["error"]

example : exLearn ["먹네요 먹네요 사네요 사네요", "잡네요 잡네요 웃네요 웃네요 믿네요 믿네요"] = ["다", "네요"] ∧
    exLearn ["잡네요 잡네요 웃네요 웃네요 믿네요 믿네요", "먹네요 먹네요 사네요 사네요"] = ["다", "네요"] := by
  refine ⟨by decide +kernel, by decide +kernel⟩

end Props
