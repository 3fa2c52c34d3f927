import Verif.Py.Words
/-! Generated by tools/gen_packaged.py from soynlp/noun/frequent_noun_suffix.txt: do not edit. -/
namespace Data
open Py

/-- soynlp/noun/frequent_noun_suffix.txt:1-4 -/
def nounSuffixes0 : List Str := words! "맨 장 서 이"

/-- the parts of soynlp/noun/frequent_noun_suffix.txt in order. The file has no final newline. -/
def nounSuffixesParts : List (List Str) := [nounSuffixes0]

/-- all rows of soynlp/noun/frequent_noun_suffix.txt in order. The file has no final newline. -/
def nounSuffixes : List Str := nounSuffixesParts.flatten
end Data
