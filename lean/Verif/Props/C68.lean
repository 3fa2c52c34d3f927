import Verif.Model.WordExtractorIO
import Verif.Props.C30_C32
/-! C68: saving and loading a word extractor. -/
namespace Props
open Py WX

/-- **C68** Loading what `save` wrote gives back every attribute - thresholds and the four tables - whatever the receiving extractor
    held before. -/
theorem C68_roundtrip (e receiver : Extractor) : WX.load receiver (WX.save e) = .ok e := by
  cases e
  rfl

/-- **C68** Hence training can be continued from a saved extractor: training the reloaded object on more sentences gives the same
    tables, the same scores and the same extraction as training the original. -/
theorem C68_resume (e receiver : Extractor) (sents : List Str) (k : Int) (c : Bool) :
    ∃ e', WX.load receiver (WX.save e) = .ok e' ∧ train e'.params e'.tables sents k c = train e.params e.tables sents k c ∧
      e'.cuts = ⟨e.minFrequency, e.minCohesionForward, e.minCohesionBackward, e.maxDroprate, e.minLeftBE, e.minRightBE, e.minLeftAV,
        e.minRightAV, e.removeSubwords⟩ ∧ (∀ w, cohesion e'.tables w = cohesion e.tables w) ∧ (∀ w, branchingEntropy e'.tables w = branchingEntropy e.tables w) :=
  ⟨e, C68_roundtrip e receiver, rfl, rfl, fun _ => rfl, fun _ => rfl⟩

/-- a receiver with other settings and a trained original: nothing of the receiver survives -/
example : ∃ e receiver : Extractor, e.maxLeft ≠ receiver.maxLeft ∧ Dict.getD e.tables.L "ab".toList 0 = 2 ∧
    Dict.getD receiver.tables.L "ab".toList 0 = 0 ∧ WX.load receiver (WX.save e) = .ok e :=
  ⟨⟨10, 6, 1, 0, 1 / 20, 0, 98 / 100, 0, 0, 0, 0, false, ⟨[(['a'], 2), (['a', 'b'], 2)], [(['b'], 2)], [], []⟩⟩,
   ⟨5, 6, 1, 0, 1 / 20, 0, 98 / 100, 0, 0, 0, 0, false, {}⟩, by decide, by decide +kernel, by decide +kernel, C68_roundtrip _ _⟩

end Props
