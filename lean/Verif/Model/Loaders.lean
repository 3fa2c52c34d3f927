import Verif.Py.File
import Verif.Model.NewsTrain
/-! The files read by PredicatorExtractor and by the part-of-speech extractors when no dictionary is given, as functions of their text. -/
namespace Loaders
open Py

/-- soynlp/predicator/_predicator.py:69-73 and soynlp/pos/_chat_pos.py:26-29: the set of particles; blank lines give the empty word -/
def loadJosa (text : Str) : List Str := (fileLines text).map strip

/-- the loop of soynlp/predicator/_predicator.py:79-83 and 95-99: a row must have two fields (else the tuple assignment raises `ValueError`) -/
def loadFreqGo (minFrequency : Int) : List Str → PyM (List Str)
  | [] => .ok []
  | line :: lines =>
    match splitWs line with
    | [word, frequency] =>
      match parseInt frequency with
      | .error e => .error e
      | .ok n =>
        match loadFreqGo minFrequency lines with
        | .error e => .error e
        | .ok words => if n < minFrequency then .ok words else .ok (word :: words)
    | _ => .error .valueError

/-- soynlp/predicator/_predicator.py:75-89, 91-100: the set of words whose frequency reaches `min_frequency` -/
def loadFreq (minFrequency : Int) (text : Str) : PyM (List Str) := loadFreqGo minFrequency (fileLines text)

/-- soynlp/pos/_adverb.py:3-8: the first fields of the lines; a blank line raises `IndexError` -/
def loadAdverbs (text : Str) : PyM (List Str) := (fileLines text).mapM (fun word => getItem (splitWs (strip word)) 0)

/-- the dictionaries of a `NewsPOSExtractor` made without arguments, given the texts of the packaged files (soynlp/pos/_news_pos.py:61-66,
    soynlp/predicator/_predicator.py:42-49 with the default `min_frequency` of 2 and 20); the noun features are a parameter -/
def defaults (feats : V2.Features) (josaText adjectiveText verbText eomiText adverbText : Str) : PyM NewsPos.Dictionaries :=
  match loadAdverbs adverbText with
  | .error e => .error e
  | .ok adverbs => match loadFreq 2 adjectiveText with
    | .error e => .error e
    | .ok adjectives => match loadFreq 2 verbText with
      | .error e => .error e
      | .ok verbs => match loadFreq 20 eomiText with
        | .error e => .error e
        | .ok eomis => .ok ⟨feats, loadJosa josaText, adjectives, verbs, eomis, adverbs⟩

end Loaders
