import Verif.Py.Words
/-! Generated by tools/gen_packaged.py from soynlp/noun/frequent_enrolled_josa.txt: do not edit. -/
namespace Data
open Py

/-- soynlp/noun/frequent_enrolled_josa.txt:1-99 -/
def frequentJosas0 : List Str := words! "가 같이 거나 고 과 그려 까지 깨나 께 께서 나 나마 는 는커녕 니 다 다가 대로 대루 더러 도 두 든 든가 든지 따라 라고 라도 라든가 라든지 란 랑 로 로부터 로서 로써 루 를 마냥 마는 마다 마따나 마저 만 만큼 밖에 보고 보다 부터 뿐 서 서부터 아 야 야말로 에 에게 에게서 에다 에다가 에서 에서부터 여 와 요 으로 으로부터 으로서 으로써 으루 은 은커녕 을 의 이 이고 이나 이나마 이니 이라고 이라도 이라든가 이라든지 이란 이랑 이루 이며 이서 이야 이야말로 이여 이요 조차 처럼 치고 하고 하구 한테 한테서"

/-- the parts of soynlp/noun/frequent_enrolled_josa.txt in order. The file has no final newline. -/
def frequentJosasParts : List (List Str) := [frequentJosas0]

/-- all rows of soynlp/noun/frequent_enrolled_josa.txt in order. The file has no final newline. -/
def frequentJosas : List Str := frequentJosasParts.flatten
end Data
