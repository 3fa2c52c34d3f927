import Verif.Props.C49
/-! C54: exactly which words `LRNounExtractor_v2.extract` returns, from the counted eojeols. -/
namespace Props
open Py Nested

/-! ### specification -/

/-- a word is accepted: a compound of at least the frequency asked for, or a word of the table with score and frequency of at least what is asked for -/
def V2Accepted (d comps : Dict Str (Rat × Rat)) (m f : Rat) (w : Str) (x : Rat × Rat) : Prop :=
  f ≤ x.1 ∧ (Dict.get? comps w = some x ∨ (w ∉ Dict.keys comps ∧ Dict.get? d w = some x ∧ m ≤ x.2))

/-- it is neither an accepted word followed by a particle (both of at least two characters) nor a particle itself -/
def V2Proper (F : V2.Features) (d comps : Dict Str (Rat × Rat)) (m f : Rat) (w : Str) (x : Rat × Rat) : Prop :=
  V2Accepted d comps m f w x ∧ (¬ ∃ l r y, w = l ++ r ∧ 2 ≤ l.length ∧ 2 ≤ r.length ∧ V2Accepted d comps m f l y ∧ r ∈ F.pos) ∧ w ∉ F.pos ∧ w ∉ F.common

/-- at least five of the shipped particles follow `l` in the counted eojeols -/
def V2Inflected (p : V2.Params) (c : Dict Str Int) (l : Str) : Prop :=
  ∃ js : List Str, js.Nodup ∧ js.length = 5 ∧ ∀ j ∈ js, j ∈ Data.frequentJosas ∧ ∃ n, V2Split p c l j n

/-- the nouns: the proper words except those that are a more frequent inflected proper word with a particle -/
def V2Noun (p : V2.Params) (F : V2.Features) (c : Dict Str Int) (d comps : Dict Str (Rat × Rat)) (m f : Rat) (w : Str) (x : Rat × Rat) : Prop :=
  V2Proper F d comps m f w x ∧ ¬ ∃ l r y, w = l ++ r ∧ 2 ≤ l.length ∧ r ≠ [] ∧ r ∈ Data.frequentJosas ∧ r ∉ Data.nounSuffixes ∧
    V2Proper F d comps m f l y ∧ x.1 < y.1 ∧ V2Inflected p c l

/-! ### proof -/

private theorem inflected_iff {p : V2.Params} {c : Dict Str Int} (hw : c.WF) (l : Str) :
    5 ≤ ((row (LR.lrOfCounter p.maxLeft p.maxRight c) l).filter (fun e => NounPost.josaset.contains e.1)).length ↔ V2Inflected p c l := by
  have hwf := LR.wf2_lrOfCounter p.maxLeft p.maxRight c
  have hrow : Dict.WF (row (LR.lrOfCounter p.maxLeft p.maxRight c) l) := by
    unfold row
    cases hr : Dict.get? (LR.lrOfCounter p.maxLeft p.maxRight c) l with
    | none => exact List.nodup_nil
    | some t => exact hwf.inner _ _ (Dict.mem_of_get? hr)
  have hmem : ∀ r n, (r, n) ∈ row (LR.lrOfCounter p.maxLeft p.maxRight c) l ↔ V2Split p c l r n := by
    intro r n
    rw [Dict.mem_iff_get? hrow]
    have : Dict.get? (row (LR.lrOfCounter p.maxLeft p.maxRight c) l) r = get2 (LR.lrOfCounter p.maxLeft p.maxRight c) l r := by
      unfold row get2
      cases Dict.get? (LR.lrOfCounter p.maxLeft p.maxRight c) l with
      | none => rfl
      | some t => rfl
    rw [this, LR.get2_lrOfCounter _ _ hw]
    unfold V2Split
    exact ⟨fun ⟨⟨a, b, c⟩, d⟩ => ⟨a, b, c, d⟩, fun ⟨a, b, c, d⟩ => ⟨⟨a, b, c⟩, d⟩⟩
  unfold V2Inflected
  rw [← C47_tables.1]
  generalize NounPost.josaset = J
  constructor
  · intro h
    refine ⟨(((row (LR.lrOfCounter p.maxLeft p.maxRight c) l).filter (fun e => J.contains e.1)).map (·.1)).take 5, ?_, ?_, ?_⟩
    · exact List.Nodup.sublist (List.take_sublist _ _) (hrow.filter (fun (e : Str × Int) => J.contains e.1))
    · rw [List.length_take, List.length_map]; omega
    · intro j hj
      obtain ⟨⟨j', n⟩, hm, he⟩ := List.mem_map.1 (List.mem_of_mem_take hj)
      dsimp only at he
      subst he
      obtain ⟨h1, h2⟩ := List.mem_filter.1 hm
      exact ⟨by simpa using h2, n, (hmem _ _).1 h1⟩
  · rintro ⟨js, h1, h2, h3⟩
    rw [← h2, ← List.length_map (as := List.filter _ _) (f := fun e : Str × Int => e.1)]
    refine (List.subperm_of_subset h1 ?_).length_le
    intro j hj
    obtain ⟨h4, n, h5⟩ := h3 j hj
    exact List.mem_map.2 ⟨(j, n), List.mem_filter.2 ⟨(hmem _ _).2 h5, by simpa using h4⟩, rfl⟩

/-- C54: exactly which words `extract` of a trained extractor returns, and with which numbers, when the post-processing is the default one (no other can be chosen,
    C47). `d` is the table of C54_extract and C54_unique; `comps` are the compounds (C49), if they are asked for. -/
theorem C54_nouns (p : V2.Params) (hpost : p.postprocessing = ["detaching_features".toList, "ignore_features".toList, "ignore_NJ".toList])
    (s s' : V2.State) (c : EC.State) (hw : c.counter.WF) (hp : ∀ kv ∈ c.counter, 0 < kv.2)
    (hsum : c.countSum = Dict.sumI c.counter) (htrain : V2.trainWithEojeolCounter p s c = .ok s')
    (entLt : List Int → Rat → Bool) (enum : Nat → List Str → List Str) (henum : ∀ i l, (enum i l).Perm l) (m f : Rat)
    (reset : Bool) (hblank : ∀ e ∈ Dict.keys c.counter, ∀ ch ∈ e, isSpace ch = false)
    (s'' : V2.State) (nouns : Dict Str (Rat × Rat)) (hex : V2.extract p entLt enum s' m f reset = .ok (s'', nouns)) :
    ∃ d g comps, s'.lrgraph = some g ∧ V2Table p s.feats c.counter m d ∧
      (p.extractCompound = true → ∃ C, V2.extractCompounds s.feats g d m = .ok C ∧ comps = C.compounds) ∧ (p.extractCompound = false → comps = []) ∧
      Dict.WF nouns ∧ ∀ w x, Dict.get? nouns w = some x ↔ V2Noun p s.feats c.counter d comps m f w x := by
  obtain ⟨g', hg', _, hnum, hfr, hlr⟩ := trained hw hp hsum htrain
  obtain ⟨d, g, hg, htab, hE⟩ := C54_extract p s s' c hw hp hsum htrain entLt enum henum m f reset
  have : g = g' := Option.some.inj (hg.symm.trans hg')
  subst this
  -- the compounds
  obtain ⟨comps, hcomp, hcw, hc1, hc2⟩ : ∃ comps, (if p.extractCompound then (V2.extractCompounds s.feats g d m).map (·.compounds) else .ok []) = .ok comps ∧
      Dict.WF comps ∧ (p.extractCompound = true → ∃ C, V2.extractCompounds s.feats g d m = .ok C ∧ comps = C.compounds) ∧ (p.extractCompound = false → comps = []) := by
    by_cases hx : p.extractCompound = true
    · obtain ⟨C, hC, hdec, found, hfn, hfm, hCw, hCk, hCx, _⟩ := (C49_compounds s.feats g d htab.wf m).2 g.lr hfr.origin hfr.cons.inv.lr.outer (by
        intro l hl
        obtain ⟨⟨l', t⟩, hm, e0⟩ := List.mem_map.1 hl
        dsimp only at e0
        subst e0
        have htne := hfr.cons.inv.lr.nonempty _ _ hm
        obtain ⟨⟨r, n⟩, hrm⟩ := List.exists_mem_of_ne_nil _ htne
        have hg2 : get2 g.lr l' r = some n := by
          unfold get2
          rw [Dict.get?_of_mem hfr.cons.inv.lr.outer hm]
          exact Dict.get?_of_mem (hfr.cons.inv.lr.inner _ _ hm) hrm
        rw [hlr, LR.get2_lrOfCounter _ _ hw] at hg2
        have hk : l' ++ r ∈ Dict.keys c.counter := (Dict.isSome_get?_iff _ _).1 (by rw [hg2.2]; rfl)
        have hsp := hblank _ hk
        exact v2_splitWs_ne_nil hg2.1.1 (fun ch hch => hsp ch (List.mem_append_left _ hch)))
      refine ⟨C.compounds, ?_, hCw, fun _ => ⟨C, hC, rfl⟩, fun h => by (rw [hx] at h; cases h)⟩
      rw [if_pos hx, hC]; rfl
    · refine ⟨[], by rw [if_neg hx], List.nodup_nil, fun h => absurd h hx, fun _ => rfl⟩
  obtain ⟨_, h2, h3⟩ := hE _ rfl
  have hv : ¬ (p.verbose = true ∧ Dict.sumI c.counter = 0) := by
    rintro ⟨h, h'⟩
    have := h2 comps hcomp h h'
    rw [hex] at this; cases this
  obtain ⟨s2, n2, h4, h5, _⟩ := h3 comps hcomp hv
  rw [hex] at h4
  have e2 : nouns = n2 := congrArg Prod.snd (Except.ok.inj h4)
  subst e2
  have hacc := C49_combined d comps htab.wf hcw m f
  have hcwf : (V2.combine d comps m f).WF := by
    unfold V2.combine
    have hup : ∀ (a b : Dict Str (Rat × Rat)), a.WF → (V2.updateDict a b).WF := by
      intro a b
      unfold V2.updateDict
      induction b generalizing a with
      | nil => exact id
      | cons e b ih => exact fun h => ih _ (h.set _ _)
    exact (hup _ _ (htab.wf.filter _)).filter _
  obtain ⟨methods, kept, mid, q1, q2, q3, q4⟩ := C47_default_pipeline none (.inl rfl) s.feats.pos s.feats.common g.lr _ hcwf
  have hme : methods = p.postprocessing := by
    rw [(C47_chosen_methods_rejected [[]] (by simp)).2] at q1
    rw [hpost]; exact (Except.ok.inj q1).symm
  rw [hfr.origin, ← hme, q2] at h5
  have hk : kept = nouns := Except.ok.inj h5
  subst hk
  have hkw : Dict.WF kept := hcwf.sublist (C47_pipeline_only_removes _ _ _ _ _ _ q2)
  have hmid : ∀ w x, (w, x) ∈ mid ↔ V2Proper s.feats d comps m f w x := by
    intro w x
    rw [q3, Dict.mem_iff_get? hcwf, hacc]
    unfold V2Proper V2Accepted
    have hnf : NounPlusFeature (V2.combine d comps m f) s.feats.pos w ↔
        ∃ l r y, w = l ++ r ∧ 2 ≤ l.length ∧ 2 ≤ r.length ∧ V2Accepted d comps m f l y ∧ r ∈ s.feats.pos := by
      unfold NounPlusFeature
      constructor
      · rintro ⟨l, r, a1, a2, a3, a4, a5⟩
        obtain ⟨y, hy⟩ := Option.isSome_iff_exists.1 ((Dict.isSome_get?_iff _ _).2 a4)
        exact ⟨l, r, y, a1, a2, a3, (hacc l y).1 hy, a5⟩
      · rintro ⟨l, r, y, a1, a2, a3, a4, a5⟩
        exact ⟨l, r, a1, a2, a3, (Dict.isSome_get?_iff _ _).1 (by rw [(hacc l y).2 a4]; rfl), a5⟩
    rw [hnf]
    rfl
  refine ⟨d, g, comps, hg, htab, hc1, hc2, hkw, ?_⟩
  intro w x
  rw [← Dict.mem_iff_get? hkw, q4, hmid]
  unfold V2Noun
  refine and_congr_right (fun hwx => not_congr ?_)
  rw [hlr]
  have hfun : ∀ a b b', (a, b) ∈ mid → (a, b') ∈ mid → b = b' := by
    intro a b b' h h'
    have h1 := Dict.get?_of_mem hcwf ((q3 _ _).1 h).1
    rw [Dict.get?_of_mem hcwf ((q3 _ _).1 h').1] at h1
    exact (Option.some.inj h1).symm
  constructor
  · rintro ⟨l, r, ⟨a1, a2, a3, a4, a5, y, xw, a6, a7, a8⟩, a9⟩
    have := hfun _ _ _ a7 ((hmid w x).2 hwx)
    subst this
    refine ⟨l, r, y, a1, a2, a3, by rw [← C47_tables.1]; exact a4, by rw [← C47_tables.2]; exact a5, (hmid _ _).1 a6, a8, (inflected_iff hw l).1 a9⟩
  · rintro ⟨l, r, y, a1, a2, a3, a4, a5, a6, a7, a8⟩
    exact ⟨l, r, ⟨a1, a2, a3, by rw [C47_tables.1]; exact a4, by rw [C47_tables.2]; exact a5, y, x, (hmid _ _).2 a6, (hmid _ _).2 hwx, a7⟩, (inflected_iff hw l).2 a8⟩

/-! ### a concrete case -/

private def nnF : V2.Features := { pos := ["는".toList, "에".toList, "를".toList, "가".toList, "의".toList, "에서".toList], common := [] }
private def nnP : V2.Params := { extractPosFeature := false, extractCompound := false }
private def nnRun (sents : List Str) : PyM (List (Str × Rat × Rat)) :=
  match V2.trainWithSentences nnP { feats := nnF } sents with
  | .ok s => (V2.extract nnP (fun _ _ => false) (fun _ l => l) s (3/10) 1).map Prod.snd
  | .error e => .error e

/-- 학교도 is the more frequent 학교 with a particle, and 학교 is followed by five particles: it is no noun -/
example : nnRun ["학교는 학교는 학교에 학교를 학교가 학교의 학교도는 학교도에".toList] = .ok [("학교".toList, (6, 1))] := by decide +kernel
/-- with four particles it is one -/
example : nnRun ["학교는 학교는 학교에 학교를 학교가 학교도는 학교도에".toList] = .ok [("학교도".toList, (2, 1)), ("학교".toList, (5, 1))] := by decide +kernel
/-- a noun followed by a particle of two characters, and a particle, are no nouns -/
example : nnRun ["학교는 학교에 학교에서는 학교에서를 에서는 에서를".toList] = .ok [("학교".toList, (2, 1))] := by decide +kernel
example : nnP.postprocessing = ["detaching_features".toList, "ignore_features".toList, "ignore_NJ".toList] := rfl

end Props
