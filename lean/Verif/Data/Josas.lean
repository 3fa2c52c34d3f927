import Verif.Py.Words
/-! Generated by tools/gen_packaged.py from soynlp/postagger/dictionary/default/Josa/josa_chat.txt: do not edit. -/
namespace Data
open Py

/-- soynlp/postagger/dictionary/default/Josa/josa_chat.txt:1-100 -/
def josas0 : List Str := words! "가 가나 가에서 가오아 같이 같이는 같이도 같이만 같인 거나 게 게는 게도 게로 게서 겐 고 고까지 고도 고만 과 과는 과도 과의 관 까지 까지가 까지고 까지나 까지는 까지도 까지두 까지로 까지를 까지만 까지밖에 까지야 까지에는 까지에도 까지에서 까지에서는 까지에선 까지엔 까지와 까지와는 까지완 까지요 까지의 까지이고 까지이든지 까지이라는 까지이라도 까지이란 까지이며 까지처럼 까진 깨나 께 께까지 께는 께도 께만 께서 께서는 께서도 께서요 께선 께요 껜 나 나마 나마도 냐 는 는요 는커녕 다 다가 대로 대로는 대로의 대론 대루 더러 던 도 도요 두 두요 든 든가 든지 따라 딴에는 딴엔 라고 라고까지 라고나 라고는 라고도"

/-- soynlp/postagger/dictionary/default/Josa/josa_chat.txt:101-200 -/
def josas1 : List Str := words! "라고만 라곤 라구 라던가 라던지 라도 라두 라든가 라든지 라든지요 라며 란 랑 랑도 랑두 랑만 랑요 랑은 로 로까지 로나 로나마 로는 로다가 로도 로두 로든 로든지 로라고 로를 로만 로만은 로만이 로밖에 로밖에는 로밖엔 로보다는 로보단 로부터 로부터가 로부터는 로부터도 로부터만 로부턴 로서 로서가 로서까지 로서는 로서도 로서만 로서보다 로서뿐 로서뿐만 로서야 로서의 로서이든 로선 로써 로써가 로써는 로써도 로써만 로써만이 로써요 로써이다 로썬 로야 로요 로의 론 를 를요 마냥 마다 마다의 마따나 마저 마저도 만 만도 만아니라 만에 만요 만으로 만으로는 만으로도 만으로써 만으론 만은 만을 만의 만이 만이라두 만이란 만이야 만치 만치나 만치도 만치이라도 만침도"

/-- soynlp/postagger/dictionary/default/Josa/josa_chat.txt:201-300 -/
def josas2 : List Str := words! "만큼 만큼도 만큼만 만큼밖에 만큼은 만큼을 만큼의 만큼이 만큼이나 말고 말고도 밖에 밖에는 밖에요 밖엔 보고 보고는 보고도 보곤 보구 보다 보다는 보다도 보다두 보다야 보단 부터 부터가 부터는 부터도 부터로 부터를 부터야 부터의 부터이라도 부턴 부텀 뿐 뿐만 뿐만아니라 뿐만은 뿐만이 뿐아니라 뿐이 뿐이겠느냐 뿐이겠습니까 뿐이고 뿐이구나 뿐이니 뿐이다라고 뿐이던가 뿐이라는 뿐이란 뿐이랴 뿐이어서 뿐이었던 뿐이었으나 뿐이에요 뿐이오 뿐이죠 뿐이지 뿐이지만 서 서는 서도 서두 서부터 서부터는 서부턴 서야 서의 선 아 야 야를 야말로 야하고 에 에가 에게 에게가 에게까지 에게까지도 에게나 에게나마 에게는 에게다 에게도 에게두 에게로 에게를 에게마다 에게마저 에게만 에게만은 에게보다 에게뿐 에게뿐만 에게서 에게서까지"

/-- soynlp/postagger/dictionary/default/Josa/josa_chat.txt:301-400 -/
def josas3 : List Str := words! "에게서나 에게서는 에게서도 에게서만 에게서와 에게서의 에게서조차 에게서처럼 에게선 에게야 에게와 에게의 에게이든 에게조차 에게조차도 에게처럼 에겐 에까지 에까지는 에까지도 에까진 에나 에나마 에는 에는요 에다 에다가 에다가는 에다가도 에다간 에도 에두 에로 에를 에만 에보다 에서 에서가 에서까지 에서까지도 에서나 에서나마 에서는 에서는요 에서도 에서두 에서든 에서라도 에서마저 에서만 에서만도 에서만은 에서만이 에서만큼 에서만큼은 에서보다 에서보다도 에서부터 에서부터는 에서부터도 에서부턴 에서뿐 에서야 에서야말로 에서와 에서요 에서은 에서의 에서이든 에서이라도 에서조차 에서조차도 에서처럼 에선 에야 에야말로 에의 에조차 엔 와 와는 와도 와의 완 요 으로 으로가 으로까지 으로까지는 으로까진 으로나 으로나마 으로는 으로다가 으로도 으로든 으로라고 으로라도 으로를 으로만"

/-- soynlp/postagger/dictionary/default/Josa/josa_chat.txt:401-500 -/
def josas4 : List Str := words! "으로만이 으로밖에 으로밖에는 으로밖엔 으로보다는 으로보단 으로부터 으로부터가 으로부터는 으로부턴 으로서 으로서가 으로서까지 으로서는 으로서도 으로서만 으로서만이 으로서밖에 으로서보다 으로서보다는 으로서보단 으로서뿐 으로서뿐만 으로서야 으로서의 으로서이든 으로선 으로써 으로써가 으로써는 으로써도 으로써만 으로써만이 으로써요 으로써이다 으로썬 으로야 으로요 으로의 으로이든지 으로이라도 으론 으루 은 은요 은커녕 을 의 의딴에는 의딴엔 이 이고 이나 이나마 이나마도 이나아 이냐 이다 이던 이던지 이든 이든가 이든지 이라고 이라고까지 이라고나 이라고는 이라고도 이라곤 이라구요 이라는 이라던가 이라던지 이라도 이라두 이라든지 이라든지요 이라며 이란 이랑 이랑도 이랑두 이랑만 이랑요 이랑은 이서 이서만 이시여 이야 이야말로 일랑 조차 조차가 조차도 조차두 조차에게도 처럼 처럼만 처럼요 처럼으로"

/-- soynlp/postagger/dictionary/default/Josa/josa_chat.txt:501-571 -/
def josas5 : List Str := words! "처럼으로도 처럼을 처럼이 처럼이나 치고 치고는 치고도 치고서 치곤 커녕 토록 하고 하고까지 하고나 하고나의 하고는 하고도 하고만 하고야 하고의 하곤 하구 하구두 하구만 하며 한테 한테까지 한테까지도 한테까지야 한테나 한테는 한테는요 한테다 한테다가 한테도 한테두 한테로 한테마저 한테만 한테만은 한테만이라구 한테보다 한테보다도 한테서 한테서까지 한테서는 한테서도 한테서만 한테서야 한테서요 한테서이라니요 한테서이라도 한테서이라두 한테선 한테야 한테요 한테이냐 한테이든지 한테이지만 한테조차 한테처럼 한텐 허구만 헌테 헌테나 헌테는 헌테도 헌테두 헌테만 헌테서 헌텐"

/-- the parts of soynlp/postagger/dictionary/default/Josa/josa_chat.txt in order. -/
def josasParts : List (List Str) := [josas0, josas1, josas2, josas3, josas4, josas5]

/-- all rows of soynlp/postagger/dictionary/default/Josa/josa_chat.txt in order. -/
def josas : List Str := josasParts.flatten
end Data
