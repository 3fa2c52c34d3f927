import Verif.Props.C54
import Verif.Props.C24_C28
import Verif.Props.C21_C23
/-! C92: the ways of training LRNounExtractor_v2, and what happens to the caller's graph. -/
namespace Props
open Py Nested

private theorem back_sum {c : EC.State} (hw : c.counter.WF) {lMax rMax : Int} {g : LR.State} (hg : LR.toLrgraph c lMax rMax = .ok g) :
    ∃ c', LR.toEojeolCounter g = .ok c' ∧
      c'.countSum = Dict.sumI (c.counter.filter (fun kv => decide (1 ≤ kv.1.length ∧ (kv.1.length : Int) ≤ lMax + rMax))) := by
  obtain ⟨c', h1, h2, h3, h4⟩ := C26_back c hw lMax rMax false g hg false
  refine ⟨c', h1, ?_⟩
  rw [h3]
  apply Dict.sumI_perm
  rw [List.perm_ext_iff_of_nodup]
  · rintro ⟨w, n⟩
    rw [h4, List.mem_filter, decide_eq_true_iff]
  · exact List.Nodup.of_map _ h2
  · exact List.Nodup.filter _ (List.Nodup.of_map _ hw)

/-- C92: the three ways of training. With an `EojeolCounter` or an `LRGraph` the minimum frequency plays no role. Training with a counter is training with
    the graph made from it, except that the number of eojeols is the counter's total, where the graph's is the total of the eojeols short enough to be in it.
    Training with sentences is training with the counter of these sentences, and with the graph of that counter: there the two totals agree. -/
theorem C92_routes (p : V2.Params) (s : V2.State) :
    (∀ c m m', V2.train p s (.counter c) m = V2.train p s (.counter c) m') ∧ (∀ g m m', V2.train p s (.graph g) m = V2.train p s (.graph g) m') ∧
    (∀ c g, c.counter.WF → (∀ kv ∈ c.counter, 0 < kv.2) → c.countSum = Dict.sumI c.counter → LR.toLrgraph c p.maxLeft p.maxRight = .ok g →
      ∃ s1 s2, V2.train p s (.counter c) = .ok s1 ∧ V2.train p s (.graph g) = .ok s2 ∧ s1 = { s2 with numEojeols := Dict.sumI c.counter } ∧
        s2.numEojeols = Dict.sumI (c.counter.filter (fun kv => decide (1 ≤ kv.1.length ∧ (kv.1.length : Int) ≤ p.maxLeft + p.maxRight)))) ∧
    (∀ sents m s', V2.train p s (.sentences sents) m = .ok s' → ∃ c g, EC.construct (V2.counterParams p m) (some sents) = .ok c ∧
      LR.toLrgraph c p.maxLeft p.maxRight = .ok g ∧ V2.train p s (.counter c) = .ok s' ∧ V2.train p s (.graph g) = .ok s') := by
  have hroute : ∀ c g, c.counter.WF → (∀ kv ∈ c.counter, 0 < kv.2) → c.countSum = Dict.sumI c.counter → LR.toLrgraph c p.maxLeft p.maxRight = .ok g →
      ∃ s1 s2, V2.train p s (.counter c) = .ok s1 ∧ V2.train p s (.graph g) = .ok s2 ∧ s1 = { s2 with numEojeols := Dict.sumI c.counter } ∧
        s2.numEojeols = Dict.sumI (c.counter.filter (fun kv => decide (1 ≤ kv.1.length ∧ (kv.1.length : Int) ≤ p.maxLeft + p.maxRight))) := by
    intro c g hw hp hsum hg
    obtain ⟨c', h1, h2⟩ := back_sum hw hg
    have hn : c.countSum ≠ -1 := by
      have := EC.sumI_nonneg (d := c.counter) (fun kv h => by have := hp kv h; omega)
      omega
    refine ⟨{ s with lrgraph := some g, numCovered := 0, numEojeols := c.countSum }, { s with lrgraph := some g, numCovered := 0, numEojeols := c'.countSum }, ?_, ?_, ?_, h2⟩
    · show V2.trainWithEojeolCounter p s c = _
      unfold V2.trainWithEojeolCounter
      rw [hg]
      show V2.trainWithLrgraph s g c.countSum = _
      unfold V2.trainWithLrgraph
      rw [if_neg hn]
    · show V2.trainWithLrgraph s g = _
      unfold V2.trainWithLrgraph
      rw [if_pos rfl, h1]
    · rw [hsum]
  refine ⟨fun _ _ _ => rfl, fun _ _ _ => rfl, hroute, ?_⟩
  intro sents m s' h
  have h : V2.trainWithSentences p s sents m = .ok s' := h
  have hne : sents ≠ [] := by rintro rfl; cases h
  unfold V2.trainWithSentences at h
  cases hc : EC.construct (V2.counterParams p m) (some sents) with
  | error e => rw [hc] at h; cases h
  | ok c =>
    rw [hc] at h
    have h : V2.trainWithEojeolCounter p s c = .ok s' := h
    cases hg : LR.toLrgraph c p.maxLeft p.maxRight with
    | error e => unfold V2.trainWithEojeolCounter at h; rw [hg] at h; cases h
    | ok g =>
      obtain ⟨h1, h2, h3, _⟩ := V2.counter_ok hc
      obtain ⟨c', e1, _, _, hb⟩ := C21_bounds (V2.counterParams p m) sents hne
      rw [hc] at e1
      cases e1
      obtain ⟨s1, s2, k1, k2, k3, k4⟩ := hroute c g h1 (fun kv hk => by have := (h2 kv hk).1; omega) h3 hg
      have k1' : V2.trainWithEojeolCounter p s c = .ok s1 := k1
      rw [h] at k1'
      cases k1'
      refine ⟨c, g, rfl, hg, k1, ?_⟩
      rw [k2, k3]
      congr 1
      have : s2.numEojeols = Dict.sumI c.counter := by
        rw [k4, List.filter_eq_self.2]
        intro kv hk
        rw [decide_eq_true_iff]
        refine ⟨List.length_pos_iff.2 (h2 kv hk).2, (hb kv.1 kv.2 hk).2.2.1⟩
      rw [← this]

/-- C92: `train_extract` is `train` and then `extract`. -/
theorem C92_train_extract (p : V2.Params) (entLt : List Int → Rat → Bool) (enum : Nat → List Str → List Str) (s : V2.State) (x : V2.Input) (m f : Rat) (k : Int) (r : Bool) :
    (∀ e, V2.train p s x k = .error e → V2.trainExtract p entLt enum s x m f k r = .error e) ∧
    (∀ s', V2.train p s x k = .ok s' → V2.trainExtract p entLt enum s x m f k r = V2.extract p entLt enum s' m f r) := by
  unfold V2.trainExtract
  exact ⟨fun e h => by rw [h], fun s' h => by rw [h]⟩

/-! ### the caller's graph -/

/-- C92: what is left out of a call: every eojeol counts, the score is at least 3/10, the frequency at least 1, the graph is reset; a graph is trained on with its own total. -/
theorem C92_defaults (p : V2.Params) (entLt : List Int → Rat → Bool) (enum : Nat → List Str → List Str) (s : V2.State) (x : V2.Input) (g : LR.State) :
    V2.train p s x = V2.train p s x 1 ∧ V2.extract p entLt enum s = V2.extract p entLt enum s (3/10) 1 true ∧
    V2.trainExtract p entLt enum s x = V2.trainExtract p entLt enum s x (3/10) 1 1 true ∧
    V2.train p s (.graph g) = (LR.toEojeolCounter g).map (fun c => { s with lrgraph := some g, numCovered := 0, numEojeols := c.countSum }) := by
  refine ⟨rfl, rfl, rfl, ?_⟩
  show V2.trainWithLrgraph s g = _
  unfold V2.trainWithLrgraph
  rw [if_pos rfl]
  cases LR.toEojeolCounter g <;> rfl

private theorem base_foldl {α : Type} (f : α → Str) (n : α → Int) (xs : List α) (g : LR.State) :
    V2.SameBase (xs.foldl (fun g x => LR.removeEojeol g (f x) (n x)) g) g := by
  induction xs generalizing g with
  | nil => exact ⟨rfl, rfl, rfl⟩
  | cons x xs ih => exact (ih _).trans (V2.sameBase_removeEojeol _ _ _)

private theorem base_claimAll (q : Str → Str → Bool) (g : LR.State) (ws : List Str) : V2.SameBase (LR.claimAll q g ws).1 g := by
  induction ws generalizing g with
  | nil => exact ⟨rfl, rfl, rfl⟩
  | cons w ws ih => exact (ih _).trans (base_foldl (fun rc : Str × Int => w ++ rc.1) (fun rc => rc.2) _ g)

private theorem base_batch (p : V2.Params) (F : V2.Features) (m : Rat) (g : LR.State) (cands : List Str) :
    V2.SameBase (V2.batchPredicting p F g cands m).1 g := by
  unfold V2.batchPredicting
  rw [V2.batchGo_state]
  exact base_claimAll _ _ _

private theorem base_reset (g : LR.State) : V2.SameBase (LR.reset g).1 g := by
  unfold LR.reset
  split
  · exact ⟨rfl, rfl, rfl⟩
  · split
    · exact ⟨rfl, rfl, rfl⟩
    · split <;> exact ⟨rfl, rfl, rfl⟩

private theorem base_cover (F : V2.Features) (nouns : Dict Str (Rat × Rat)) (gn : LR.State × Int) (ws : List Str) :
    V2.SameBase (V2.coverGo F nouns gn ws).1 gn.1 := by
  obtain ⟨g, n⟩ := gn
  rw [V2.coverGo_eq]
  exact base_claimAll _ _ _

private theorem base_extractBase {p : V2.Params} {entLt : List Int → Rat → Bool} {enum : Nat → List Str → List Str} {F : V2.Features} {g : LR.State}
    {x : V2.Features × LR.State × List Str} (h : V2.extractBase p entLt enum F g = .ok x) : V2.SameBase x.2.1 g := by
  unfold V2.extractBase at h
  dsimp only at h
  split at h
  · unfold V2.extractDomainPosFeatures at h
    dsimp only at h
    split at h
    · cases h
    · simp only [if_true] at h
      split at h <;> rename_i c _ <;>
      · cases ha : V2.appendFeatures F "pos".toList (Dict.keys ‹Dict Str (Rat × Int)›) with
        | error e => rw [ha] at h; cases h
        | ok F' =>
          rw [ha] at h
          rw [← Except.ok.inj h]
          exact (base_reset _).trans (base_batch _ _ _ _ _)
  · cases h; exact ⟨rfl, rfl, rfl⟩

theorem v2_reset_base {g g' : LR.State} (h : V2.SameBase g' g) {o : Nested Str} (ho : g.origin = some o) (hne : o ≠ []) :
    (LR.reset g').1 = (LR.reset g).1 := by
  have ho' := h.1.trans ho
  obtain ⟨a, b, o1, lm, rm⟩ := g'
  obtain ⟨a', b', o2, lm', rm'⟩ := g
  obtain ⟨h1, h2, h3⟩ := h
  dsimp only at *
  subst h1; subst h2; subst h3; subst ho
  unfold LR.reset LR.checkLrgraph
  dsimp only
  rw [if_neg hne, if_neg hne, if_neg hne]

theorem v2_base_extract {p : V2.Params} {entLt : List Int → Rat → Bool} {enum : Nat → List Str → List Str} {s s' : V2.State} {g : LR.State} {m f : Rat}
    {r : Bool} {out : Dict Str (Rat × Rat)} (hs : s.lrgraph = some g) (h : V2.extract p entLt enum s m f r = .ok (s', out)) :
    ∃ g', V2.SameBase g' g ∧ s'.lrgraph = some (if r then (LR.reset g').1 else g') := by
  unfold V2.extract at h
  rw [hs] at h
  dsimp only at h
  cases hb : V2.extractBase p entLt enum s.feats g with
  | error e => rw [hb] at h; cases h
  | ok x =>
    obtain ⟨F, g1, cands⟩ := x
    have b1 := base_extractBase hb
    rw [hb] at h
    dsimp only at h b1
    have b2 := base_batch p F m g1 cands
    generalize V2.batchPredicting p F g1 cands m = b at h b2
    cases hc : V2.extractCompoundsIf p F s b.1 b.2 m with
    | error e => rw [hc] at h; cases h
    | ok y =>
      obtain ⟨s1, g2, comp⟩ := y
      rw [hc] at h
      dsimp only at h
      have b3 : V2.SameBase g2 b.1 := by
        unfold V2.extractCompoundsIf at hc
        split at hc
        · cases hC : V2.extractCompounds F b.1 b.2 m with
          | error e => rw [hC] at hc; cases hc
          | ok C =>
            rw [hC] at hc
            have := congrArg (fun x => x.2.1) (Except.ok.inj hc)
            dsimp only at this
            rw [← this]
            exact V2.extractCompounds_base hC
        · have := congrArg (fun x => x.2.1) (Except.ok.inj hc)
          dsimp only at this
          rw [← this]
          exact ⟨rfl, rfl, rfl⟩
      unfold V2.finish at h
      split at h
      · cases h
      · unfold V2.checkCovered at h
        dsimp only at h
        split at h
        · cases h
        · rename_i nouns _ _ q hq
          split at hq
          · cases hq
          · have b4 := base_cover F nouns ((LR.reset g2).1, 0) (sorted V2.longerLe (Dict.keys (V2.nounCandidates (LR.reset g2).1 (enum 1 F.pos))))
            rw [Except.ok.inj hq] at b4
            refine ⟨q.1, b4.trans ((base_reset g2).trans (b3.trans (b2.trans b1))), ?_⟩
            have := congrArg (fun x => x.1.lrgraph) (Except.ok.inj h)
            exact this.symm

/-- C92: the extractor works on the caller's graph itself. After a successful extraction that resets, the graph is what its own `reset_lrgraph` would have made of it:
    everything the extraction removed is back, and with it everything that the caller had removed before. Without the reset the graph may have lost eojeols, but calling
    `reset_lrgraph` on it still gives that graph. (`o` is the graph kept for resetting; it is non-empty for every graph that was not frozen and has an eojeol.) -/
theorem C92_restores (p : V2.Params) (entLt : List Int → Rat → Bool) (enum : Nat → List Str → List Str) (s s' : V2.State) (g : LR.State) (m f : Rat) (k : Int)
    (out : Dict Str (Rat × Rat)) (o : Nested Str) (ho : g.origin = some o) (hne : o ≠ []) :
    (V2.trainExtract p entLt enum s (.graph g) m f k true = .ok (s', out) → s'.lrgraph = some (LR.reset g).1) ∧
    (V2.trainExtract p entLt enum s (.graph g) m f k false = .ok (s', out) → ∃ g', s'.lrgraph = some g' ∧ (LR.reset g').1 = (LR.reset g).1) ∧
    (LR.reset g).1.lr = o ∧ (LR.reset g).1.rl = LR.reverse o := by
  have hr : (LR.reset g).1 = { g with lr := o, rl := LR.reverse o } := by
    unfold LR.reset LR.checkLrgraph
    rw [ho]; dsimp only; rw [if_neg hne, if_neg hne]
  have key : ∀ r, V2.trainExtract p entLt enum s (.graph g) m f k r = .ok (s', out) →
      ∃ g', V2.SameBase g' g ∧ s'.lrgraph = some (if r then (LR.reset g').1 else g') := by
    intro r h
    obtain ⟨_, h2⟩ := C92_train_extract p entLt enum s (.graph g) m f k r
    cases ht : V2.train p s (.graph g) k with
    | error e => rw [(C92_train_extract p entLt enum s (.graph g) m f k r).1 e ht] at h; cases h
    | ok s1 =>
      rw [h2 s1 ht] at h
      refine v2_base_extract ?_ h
      have ht : V2.trainWithLrgraph s g = .ok s1 := ht
      unfold V2.trainWithLrgraph at ht
      rw [if_pos rfl] at ht
      split at ht
      · cases ht; rfl
      · cases ht
  refine ⟨fun h => ?_, fun h => ?_, by rw [hr], by rw [hr]⟩
  · obtain ⟨g', b, e⟩ := key true h
    rw [e, if_pos rfl, v2_reset_base b ho hne]
  · obtain ⟨g', b, e⟩ := key false h
    exact ⟨g', by rw [e]; rfl, v2_reset_base b ho hne⟩

/-! ### the hypotheses are met -/

private def xF : V2.Features := ⟨["는".toList, "를".toList, "에서".toList], ["다".toList], ["은".toList]⟩
private def xSents : List Str := ["학교는 좋다".toList, "학교를 학교에서 갔다".toList, "학교 학교는".toList, "학교장은 학교장는 학교장를".toList]
private def xCounter : PyM EC.State := EC.construct (V2.counterParams {} 1) (some xSents)
private def xGraph : PyM LR.State := match xCounter with | .ok c => LR.toLrgraph c 10 9 | .error e => .error e
/-- a graph from which the caller removed `학교는` -/
private def xUsed : PyM LR.State := xGraph.map (fun g => LR.removeEojeol g "학교는".toList 2)
/-- training with the used graph: does extraction with / without reset end on the original graph? -/
private def xRun (r : Bool) : PyM (Bool × Bool × List Str) :=
  match xGraph, xUsed with
  | .ok g0, .ok g => match V2.trainExtract {} (fun _ _ => false) (fun _ l => l) { feats := xF } (.graph g) (3/10) 1 1 r with
    | .ok (s', out) => .ok (decide (g = g0), decide (s'.lrgraph = some g0), Dict.keys out)
    | .error e => .error e
  | _, _ => .error .valueError

/-- the used graph differs from the original; after the resetting extraction it is the original again, without the reset it is not -/
example : xRun true = .ok (false, true, ["학교장".toList, "학교".toList]) := by decide +kernel
example : xRun false = .ok (false, false, ["학교장".toList, "학교".toList]) := by decide +kernel
/-- a counter with an eojeol too long for the graph: the two totals differ -/
private def xLong : EC.State := { counter := [("학교는".toList, 2), ("가나다라마바사아자차카타파하거너더러머버".toList, 3)], countSum := 5 }
private def xTotals : PyM (Int × Int) :=
  match LR.toLrgraph xLong 10 9 with
  | .ok g => match V2.train {} { feats := xF } (.counter xLong), V2.train {} { feats := xF } (.graph g) with
    | .ok s1, .ok s2 => .ok (s1.numEojeols, s2.numEojeols)
    | _, _ => .error .valueError
  | .error e => .error e
example : xTotals = .ok (5, 2) := by decide +kernel

end Props
