import Verif.Py.Words
/-! Generated by tools/gen_packaged.py from soynlp/postagger/dictionary/default/Adverb/adverb.txt: do not edit. -/
namespace Data
open Py

/-- soynlp/postagger/dictionary/default/Adverb/adverb.txt:1-100 -/
def adverbs0 : List (Str × Nat) := rows! "가가호호 7 가급적 145 가까스로 229 가까이 1027 가끔 1466 가끔가끔 6 가끔가다 17 가냘피 2 가다가다 3 가닥가닥 5 가득 1561 가득가득 9 가뜩이나 127 가랑가랑 3 가령 625 가만가만 27 가만히 1074 가물가물 41 가뭇없이 4 가벼이 24 가부간 8 가상히 8 가슬가슬 3 가위 20 가일층 4 가장 10310 가지껏 2 가지런히 105 각각 1843 각별히 54 간곡히 32 간단없이 7 간단히 435 간당간당 4 간댕간댕 2 간드랑 2 간략히 40 간만에 5 간신히 346 간실간실 2 간절히 106 간질간질 10 간혹 345 갈가리 29 갈기갈기 29 갈래갈래 9 갈수록 300 갈팡질팡 37 감사히 5 감연히 2 감지덕지 15 감쪽같이 74 감히 462 갑자기 2800 갑작 84 갑작스러이 5 갑작스레 51 강경히 2 강력히 216 같이 7253 갱신히 5 갸우뚱 50 갸웃 31 갸웃이 6 걀걀 2 거개 3 거꾸로 511 거듭 772 거듭거듭 28 거뜬히 41 거리낌없이 11 거만스레 2 거뭇거뭇 18 거반 5 거분거분 2 거의 4980 거지반 12 거진 33 거칠거칠 4 거침없이 123 거칫 2 거푸 35 거푸거푸 2 걱정스레 10 건강히 3 건들건들 5 건성건성 9 걸핏하면 91 겁나 3 겅정겅정 6 겅중겅중 12 게걸스레 4 게게 2 게다가 1157 게슴츠레 10 게을리 97 겨우 1483 겨우겨우 20 격렬히 11 견결히 2"

/-- soynlp/postagger/dictionary/default/Adverb/adverb.txt:101-200 -/
def adverbs1 : List (Str × Nat) := rows! "견고히 5 결국 991 결단코 24 결연히 5 결코 2173 겸사겸사 5 겸허히 11 겹겹이 46 경솔히 2 계속 3253 고닥새 3 고래고래 66 고루고루 14 고물고물 7 고분고분 59 고사하고 32 고생스레 3 고스란히 290 고슬고슬 6 고요히 64 고이고이 6 고작 386 고즈너기 4 고즈넉이 3 고집스러이 2 고집스레 4 곤드레 9 곤드레만드레 3 곧바로 497 곧이곧대로 31 곧이어 76 골고루 215 골골 6 골똘히 49 곰곰 49 곰곰이 112 곰실곰실 3 곱게곱게 2 곱슬곱슬 6 곳곳이 12 공고히 42 공공연히 57 공손히 48 공연히 228 공정히 4 공평히 5 과감히 137 과도히 2 과연 1815 관계없이 166 괜스레 21 괜히 518 굉장히 1137 교묘히 40 구구구 2 구구절절이 4 구깃구깃 3 구부정히 3 구불구불 36 구비구비 5 구슬피 2 구질구질 39 구차히 2 구태 2 구태여 136 국으로 3 군데군데 109 굳건히 31 굳이 753 굼실굼실 2 굽실 7 굽이굽이 23 궁궁궁궁궁궁궁 2 궁금히 2 궁시렁 2 궁싯궁싯 2 귀뚜르 2 귀뚤귀뚤 2 귀중히 5 균등히 3 그나마 638 그나저나 57 그날그날 7 그냥 4459 그냥저냥 7 그니까 766 그다지 614 그대로 4031 그동안 23 그득그득 2 그득히 11 그때그때 82 그때껏 2 그래도 729 그래서 9625 그래야 34 그러나 24725 그러나저러나 19 그러니까 1831 그러니끼니 2"

/-- soynlp/postagger/dictionary/default/Adverb/adverb.txt:201-300 -/
def adverbs2 : List (Str × Nat) := rows! "그러다가 171 그러더니 20 그러면 1947 그러므로 1816 그럭저럭 152 그런고로 2 그런대로 183 그런데 7290 그런데다가 2 그런즉 2 그럼 2524 그렁그렁 23 그렁저렁 2 그렇게 1890 그렇다고 26 그렇다면 12 그렇듯이 4 그렇지마는 2 그렇지만 1112 그리 2058 그리고 18905 그리하여 741 그마나 2 그마만큼 3 그만큼 1147 그면은 10 그야 36 그야말로 648 그저 1730 그제사 17 그제서야 281 그제야 246 그지없이 26 그치만 10 그토록 492 극구 48 극력 2 극명히 3 극진히 30 근데 3869 근심스레 4 근질근질 23 글썽 22 글썽글썽 11 긁적긁적 3 금방 1113 금방금방 4 금세 264 금시로 4 급거 5 급격히 257 급기야 159 급속히 226 긍휼히 2 기꺼이 183 기껏 131 기껏해야 149 기술껏 2 기신기신 3 기실 67 기어코 113 기연가미연가 2 기왕에 62 기운껏 3 기웃기웃 8 기탄없이 7 기필코 27 긴급히 17 긴밀히 33 길길이 43 길이길이 15 길쭉길쭉 2 깊숙이 242 깊이 1003 깊이깊이 14 까딱 75 까딱까딱 7 까딱하면 9 까마득히 36 까무룩 5 까뭇까뭇 5 까불까불 4 까빡까빡 2 까슬까슬 8 까실까실 2 까아쭉 3 까악까악 6 까칠까칠 7 깍듯이 34 깔깔 41 깔깔깔 7 깔축없이 2 깜깜 102 깜박깜박 9 깜빡깜빡 5 깜짝 645 깜짝깜짝 21 깡그리 63 깡깡 2 깡총깡총 4"

/-- soynlp/postagger/dictionary/default/Adverb/adverb.txt:301-400 -/
def adverbs3 : List (Str × Nat) := rows! "깡충깡충 18 깨개객 2 깨갱 3 깨끗이 451 깨애애애 2 깩깩 4 깽깽 7 꺼끌꺼끌 5 꺼떡꺼떡 2 꺼이꺼이 9 꺼칠꺼칠 5 꺽꺽 5 껄껄 59 껌벅껌벅 5 껍신껍신 2 껍진껍진 2 껑청껑청 2 껑충 30 껑충껑충 10 꼬깃꼬깃 13 꼬꼬 4 꼬꼬댁 10 꼬끼오 6 꼬끼요오 2 꼬들꼬들 4 꼬물꼬물 2 꼬박 164 꼬박꼬박 86 꼬불꼬불 35 꼬옥 50 꼬장꼬장 12 꼬질꼬질 9 꼬치꼬치 34 꼴깍꼴깍 2 꼴꼴 4 꼼꼼 103 꼼꼼히 108 꼼지락 4 꼼지락꼼지락 2 꼼짝달싹 9 꼼짝없이 88 꼿꼿이 49 꽁꽁 143 꽈당 2 꽐꽐 2 꽝꽝 14 꽤애액 2 꽥꽥 12 꽥꽥꽥꽥 2 꾜로 2 꾸깃꾸깃 3 꾸꾸 4 꾸꾸꾸 6 꾸덕꾸덕 3 꾸득꾸득 4 꾸룩꾸룩 3 꾸물꾸물 15 꾸밈없이 12 꾸벅꾸벅 27 꾸불꾸불 15 꾸역꾸역 39 꾸적꾸적 3 꾸준히 378 꾹꾹 45 꿀꺽 76 꿀꺽꿀꺽 15 꿈지럭 2 꿈지럭꿈지럭 2 꿈쩍 40 꿈틀 28 꿈틀꿈틀 12 꿋꿋이 28 꿍짝꿍짝 2 뀌이익 4 끄덕끄덕 11 끄떡 30 끄떡끄떡 2 끄떡없이 4 끄윽끄윽 2 끄응 3 끈적끈적 46 끊임없이 857 끌끌 33 끔뻑끔뻑 5 끔찍이 22 끙끙 27 끝끝내 55 끝내 589 끝없이 252 끼끼 3 끼득끼득 2 끼륵끼륵 3 끼리끼리 38 낄낄 12 낄낄낄 5 낑낑 8 나긋나긋 10 나날이 97 나달나달 4 나란히 537"

/-- soynlp/postagger/dictionary/default/Adverb/adverb.txt:401-500 -/
def adverbs4 : List (Str × Nat) := rows! "나름대루 2 나몰라라 4 나박나박 3 나불나불 2 나붓이 2 나중 2 나지막이 18 나직나직 6 나직이 73 나풀나풀 8 낙케 2 난데없이 83 난생 97 날강날강 2 날로 163 날름 12 날름날름 4 날마다 4 남김없이 57 남달리 43 남몰래 49 남실남실 3 납작납작 3 낭창낭창 3 낱낱이 89 내남없이 4 내내 601 내둥 5 내지 677 냅다 67 냉연히 2 냉정히 12 냉철히 8 냉큼 102 냉큼냉큼 2 냠냠 4 너그러이 11 너끈히 20 너나없이 31 너덜너덜 30 너도나도 68 너무 6774 너무나 1509 너무너무 127 너부죽이 2 너울너울 22 너털너털 3 너풀너풀 3 넉넉히 77 넌지시 56 넌짓 5 널름널름 2 넓적넓적 3 넘실넘실 4 넙죽 11 넙죽넙죽 4 노글노글 2 노닥노닥 2 노량으로 5 노릇노릇 9 노상 56 녹녹히 2 높이 574 높이높이 3 높직이 2 누누이 29 누덕누덕 7 누릇누릇 3 누차 16 눈치껏 9 뉘엿뉘엿 25 느글느글 6 느긋이 10 느닷없이 197 느럭느럭 3 느런히 7 느릿느릿 72 느물느물 5 늘 2091 늘렁늘렁 2 늠실늠실 4 능글능글 5 능력껏 6 능숙히 2 능히 100 다같이 9 다글다글 3 다급히 19 다닥다닥 61 다달이 19 다름없이 91 다만 2095 다문다문 6 다분히 236 다소곳이 42 다시 13523 다정스레 4 다짜고짜 71 다짜고짜로 16 다함께 5"

/-- soynlp/postagger/dictionary/default/Adverb/adverb.txt:501-600 -/
def adverbs5 : List (Str × Nat) := rows! "다행히 448 닥닥 2 단걸음에 2 단김에 6 단박에 2 단번에 77 단순히 1038 단숨에 177 단연 131 단연코 26 단정히 31 단지 1239 단호히 56 달가닥달가닥 2 달그락 5 달근달근 2 달달 43 달달달 6 달랑 81 달랑달랑 6 달리 2264 담담히 15 담대히 3 당당 432 당분간 260 당빠 2 당연히 888 당최 27 당황스레 2 대강 158 대강대강 7 대개 1039 대견스레 2 대관절 44 대굴대굴 6 대놓고 32 대단히 746 대뜸 217 대략 259 대롱대롱 25 대번에 50 대부분 70 대신 25 대체 312 대체로 1105 대충 414 대충대충 25 대폭 441 더 20135 더구나 1197 더군다나 152 더더구나 25 더더군다나 7 더더욱 128 더덕더덕 16 더듬더듬 27 더러더러 2 더부룩히 2 더불어 77 더없이 122 더우기 55 더욱 5239 더욱이 590 더이상 70 더한층 15 덕지 2 덕지덕지 33 덜그럭 4 덜렁덜렁 6 덜컥덜컥 3 덜컹덜컹 5 덤덤히 4 덥석 64 덩그렁이 2 덩그마니 7 덩달아 3 덩따 2 덩실덩실 21 데굴데굴 24 데면데면 10 도글도글 2 도대체 1244 도도히 9 도란도란 7 도리어 368 도막도막 3 도무지 497 도저히 656 도톰히 2 도파니 2 독실히 3 돈독히 13 돌돌 21 돌연 120 동강동강 3 동글 3 동글동글 14 동동 77 되게 2047 되게되게 2"

/-- soynlp/postagger/dictionary/default/Adverb/adverb.txt:601-700 -/
def adverbs6 : List (Str × Nat) := rows! "되도록 219 되똑 2 된통 13 두고두고 118 두근두근 14 두근반서근반 2 두둑이 11 두둥실 13 두런두런 16 두루 262 두루두루 18 두리두리 2 두리번두리번 7 두릿두릿 2 두말없이 14 두서없이 21 두터이 2 둘둘 44 둘레둘레 6 둥그레 3 둥그레서 6 둥글둥글 18 둥기둥 4 둥둥 65 둥실 9 둥실둥실 6 뒤뚱 2 뒤뚱뒤뚱 10 뒤룩뒤룩 2 뒤미처 25 뒤숭숭 40 뒤척 3 뒤척뒤척 2 드높이 3 드덕드덕 2 드디어 690 드르렁드르렁 2 드륵드륵 2 드문드문 61 득달같이 22 득득 4 득시글득시글 2 득실득실 5 든든히 10 들들 11 들락날락 20 들썩들썩 7 들쑥날쑥 11 들여다 2 들입다 16 들쭉날쭉 24 듬뿍 95 듬뿍듬뿍 6 듬성듬성 42 등한히 14 디룩디룩 2 디립다 3 딩동댕 7 따끈따끈 21 따끔따끔 14 따닥따닥 2 따따따 2 따뜻이 19 따라서 5366 따로따로 100 따루따루 3 따르르릉 8 따스히 2 딴따다단 2 딴딴딴 2 딴은 19 딸꾹 30 딸딸딸 2 딸랑딸랑 9 딸콕딸콕 2 때굴때굴 2 때때로 236 때마침 102 땡글땡글 3 땡땡 11 떠듬떠듬 11 떠떠떠 2 떡하니 4 떳떳이 37 떵떵 4 떼구르르 3 떼굴떼굴 5 또 20060 또각또각 6 또그닥또그닥 2 또는 6878 또다시 546 또랑또랑 8 또렷또렷 3 또록또록 5 또르또르 3 또박또박 64 또한 6448 똑같이 568 똑딱똑딱 7"

/-- soynlp/postagger/dictionary/default/Adverb/adverb.txt:701-800 -/
def adverbs7 : List (Str × Nat) := rows! "똑똑 25 똑똑히 119 똑바로 301 똘똘 38 똘망똘망 2 똘방똘방 4 똥똥 2 뚜뚜뚜 2 뚜렷이 187 뚜벅뚜벅 35 뚝딱뚝딱 4 뚝뚝 111 뚤뚤 2 뚤레뚤레 2 뚱뚱 73 뜨끈뜨끈 18 뜨끔뜨끔 6 뜨문뜨문 2 뜬금없이 11 뜻대로 98 뜻밖에 249 띄엄띄엄 39 띠리리링 2 룰루랄라 2 마냥 216 마땅히 261 마음껏 237 마음대로 357 마지막 7 마치 2802 마침내 1265 막상 431 막힘없이 3 만만히 11 만부득이 4 만약 363 만일 165 만판 4 많이 9136 말끔히 141 말똥말똥 23 말똥히 2 말랑말랑 22 말없이 365 말짱 41 말큰말큰 4 말하자면 26 맘껏 39 맘대로 73 망령되이 2 망설망설 2 매끈매끈 4 매끌매끌 2 매년 484 매달 165 매번 139 매사 10 매양 23 매우 3189 매일 1271 매일매일 3 매초 5 매해 12 맥없이 71 맨날 370 맨송맨송 3 맨숭맨숭 4 맴맴 3 맹렬히 43 맹세코 12 머뭇머뭇 26 머지않아 2 먼저 4556 먼첨 4 멀거니 70 멀건히 5 멀뚱멀뚱 21 멀뚱히 12 멀리 1321 멀리멀리 23 멀쩡히 19 멀찌감치 51 멀찌막이 4 멀찍이 36 멈칫 61 멈칫멈칫 4 멋대로 124 멍멍 8 멍청히 54 멍하니 256 메슥메슥 2 메헤헤 4 면면히 33 면밀히 74 면접 3 명료히 2 명백히 116 명실공히 2 명쾌히 3 명확히 140"

/-- soynlp/postagger/dictionary/default/Adverb/adverb.txt:801-900 -/
def adverbs8 : List (Str × Nat) := rows! "모닥모닥 2 모두 8257 모든 3 모락모락 28 모름지기 46 모조리 284 모쪼록 10 모처럼 305 목청껏 34 목하 2 몰래 549 몰래몰래 10 몸소 69 몹시 953 못마땅히 6 몽글몽글 6 몽땅 192 몽실몽실 2 무궁무궁 10 무궁히 3 무담시 4 무럭무럭 59 무려 451 무릇 67 무사히 223 무성히 7 무심코 165 무심히 125 무작정 16 무조건 679 무지 48 무지무지 20 무진장 8 무참히 44 무척 1106 무턱대고 102 묵묵히 239 문득 934 문득문득 38 문제없이 15 물경 8 물끄러미 226 물렁물렁 12 물론 6095 물씬물씬 7 물어물어 9 물컥물컥 5 물컹물컹 3 뭉게뭉게 8 뭉글뭉글 5 뭉실뭉실 6 뭉클 61 뭉클뭉클 6 뭉텅 4 뭉텅뭉텅 5 뭉툭 21 미끈미끈 6 미끌미끌 6 미리미리 46 미상불 10 미적미적 6 미주알고주알 9 미처 418 민감히 5 밀접히 36 밉쌀 2 및 8495 바각바각 5 바글바글 6 바들바들 28 바락바락 13 바로 8776 바로바로 14 바리바리 3 바삐 77 바삐바삐 5 바삭바삭 18 바스락 12 바스락바스락 4 바싹바싹 10 바야흐로 120 바작바작 6 바짝 249 바짝바짝 17 박박 40 반가이 20 반드시 2080 반들반들 40 반듯반듯 7 반듯이 32 반질반질 22 반짝반짝 53 발기발기 3 발름발름 2 발발 9 발칵 44 밤낮 55 밤낮없이 18 밤새 6 밤새껏 15"

/-- soynlp/postagger/dictionary/default/Adverb/adverb.txt:901-1000 -/
def adverbs9 : List (Str × Nat) := rows! "방글방글 5 방금 330 방긋방긋 4 방방 12 방방이 5 방싯 2 방자히 2 배배 8 배불리 56 백날 6 백일하에 3 뱅글뱅글 19 뱅뱅 26 뱅뱅뱅뱅 2 버글버글 4 버둥버둥 8 버럭버럭 18 버릇없이 8 버번쩍 2 버석버석 5 버젓이 87 벅적벅적 3 번갈아 31 번드르르 4 번들번들 13 번번이 155 번지르 6 번지르르 12 번질번질 6 번쩍 302 번쩍번쩍 42 벌떡 449 벌떡벌떡 11 벌러덩 3 벌렁벌렁 5 벌름벌름 2 벌벌 68 벌벌벌벌 2 벌써 1995 벌컥벌컥 39 법다이 2 벙글벙글 7 벙벙히 6 베짱베짱 2 변변히 26 변함없이 54 변화없이 4 별달리 9 별로 1983 별반 59 별안간 13 보글 2 보글보글 13 보나마나 2 보들보들 7 보송보송 19 보슬보슬 7 보아하니 54 보잘것없이 2 보통 729 복작복작 2 본디 20 본래 40 본체만체 5 볼록 35 볼품없이 6 부글부글 29 부끄러이 2 부단히 94 부득부득 17 부득불 8 부득이 93 부들부들 91 부디 91 부랴부랴 70 부릉 3 부리나케 66 부리부리 12 부뭇부뭇 2 부석부석 9 부숭부숭 2 부스럭 8 부스럭부스럭 5 부스스 41 부슬부슬 15 부시시 25 부얼부얼 2 부전부전 2 부절히 2 부지런히 310 부진부진 2 부질없이 17 부쩍부쩍 4 북북 16 북실북실 3 분명 2299 분명히 1348 분분히 2 분주히 54 불가불 7"

/-- soynlp/postagger/dictionary/default/Adverb/adverb.txt:1001-1100 -/
def adverbs10 : List (Str × Nat) := rows! "불과 1527 불그락푸르락 2 불끈 87 불끈불끈 10 불불 2 불쌍히 16 불쑥 301 불쑥불쑥 32 불안스레 2 불행히 105 불현듯 109 붉으락푸르락 9 붕붕 22 비교적 96 비단 256 비뚤비뚤 5 비로소 1372 비리비리 3 비밀히 3 비비 15 비비비비 6 비스듬히 137 비슬비슬 6 비슷비슷 30 비실비실 23 비죽비죽 5 비쭉비쭉 2 비척비척 7 비칠비칠 7 비틀 6 비틀비틀 19 비판없이 2 빈둥빈둥 15 빈들빈들 2 빈틈없이 34 빌빌 10 빙그레 117 빙그르르 14 빙글빙글 59 빙긋빙긋 3 빙긋이 82 빙빙 107 빠꼼빠꼼 2 빠끔빠끔 2 빠끔히 24 빠락빠락 2 빠릿빠릿 2 빠아앙 2 빠안히 5 빠앙 9 빠짐없이 109 빡빡 23 빤들빤들 2 빤딱빤딱 3 빤작빤작 2 빤질빤질 3 빤짝빤짝 2 빤히 158 빨긋빨긋 3 빨딱빨딱 2 빨랑빨랑 3 빨리빨리 72 빨빨 2 빳빳이 17 빵빵 21 빼곡 21 빼곡히 27 빼딱빼딱 6 빼빼 8 빽빽 9 빽빽이 41 뺀질뺀질 2 뺑뺑 6 뻐꾹 14 뻐끔뻐끔 8 뻐언히 2 뻑뻑 20 뻑뻑이 7 뻔질 3 뻔질나게 4 뻔쩍뻔쩍 3 뻘뻘 48 뻘쭘 2 뻣뻣이 13 뻥뻥 11 뽀그르르 3 뽀도독 3 뽀드득 15 뽀드득뽀드득 2 뽀르르라니 2 뽀송뽀송 7 뽀작뽀작 3 뽈뽈 2 뽕뽕 3 뾰루퉁 4 뾰조록이 2 뾰족 177 뾰족뾰족 5 뾰죽뾰죽 2 뿌리깊이 4"

/-- soynlp/postagger/dictionary/default/Adverb/adverb.txt:1101-1200 -/
def adverbs11 : List (Str × Nat) := rows! "뿌적뿌적 2 뿔뿔이 63 뿡뿡 6 쀼우 2 삐걱삐걱 4 삐그덕 5 삐끗 9 삐딱삐딱 6 삐뚜름히 3 삐뚤랑 2 삐뚤삐뚤 5 삐리리 5 삐리삐링 2 삐아악 2 삐악삐악 4 삐죽삐죽 20 삐죽이 11 삐질삐질 3 사각사각 14 사그락 2 사근사근 2 사뭇 215 사분사분 3 사뿐 5 사뿐사뿐 8 사뿐히 24 사사건건 57 사사로이 10 사시장철 3 사실 2498 사알짝 2 사정없이 107 산들산들 6 산산이 29 살금살금 42 살랑살랑 21 살래살래 11 살살 89 살짝 415 살짝살짝 17 살포시 17 살풋 8 삼가 13 상관없이 184 상기 9 상당히 986 상세히 107 상호 87 샅샅이 83 새근새근 6 새로이 212 새록새록 27 새삼 664 새삼스러이 7 새삼스레 64 새치름히 5 색색이 3 샐쭉 9 생각없이 2 생게망게 2 생글생글 25 생생히 35 생으로 3 생판 30 서걱서걱 3 서글서글 2 서글피 3 서늘서늘 2 서로서로 27 서리서리 11 서서히 520 서슴없이 64 선득선득 3 선들선들 2 선뜩선뜩 4 선뜻 271 선뜻선뜻 3 선명히 43 선선히 27 섣불리 112 설렁설렁 6 설레설레 35 설령 195 설마 258 설마한들 9 설설 8 설혹 54 섬세히 2 성급히 22 성대히 4 성실히 30 성심껏 7 성심성의껏 5 성의껏 18 성큼 87 성큼성큼 73 세밀히 25 세세히 11 세심히 7 소곤소곤 12"

/-- soynlp/postagger/dictionary/default/Adverb/adverb.txt:1201-1300 -/
def adverbs12 : List (Str × Nat) := rows! "소근소근 6 소담스레 2 소란스레 2 소록소록 5 소리껏 4 소리소리 16 소복소복 4 소복히 10 소상히 42 소신껏 24 소위 815 소중스레 4 소중히 138 소쩍다 10 소홀히 190 속닥속닥 2 속속 109 속속들이 58 속절없이 40 속히 70 손수 160 솔깃이 2 솔래솔래 2 솔솔 21 솔이 2 솔직히 768 송골송골 8 송글송글 11 송두리째 13 송송 27 송알송알 4 송이송이 3 수군수군 11 수근수근 2 수단껏 2 수런수런 3 수리수리 4 수많이 5 수북수북 2 수북이 37 수선수선 2 수시로 226 수없이 349 수월히 4 순 36 순간순간 25 순순히 94 순전히 241 순조로이 2 술술 50 숨김없이 17 숫제 106 숭굴숭굴 4 숭덩숭덩 5 숭숭 28 쉑쉑 2 쉬쉬 9 쉬엄쉬엄 18 쉬이 33 쉬임없이 11 쉭쉭 3 쉴새없이 16 쉼없이 2 쉽사리 194 스르르 92 스름스름 5 스멀스멀 18 스물스물 6 스스럼없이 56 스스로 2687 스적스적 4 슥슥 5 슬그머니 260 슬근슬근 3 슬금슬금 80 슬며시 98 슬몃 11 슬슬 137 슬쩍 244 슬쩍슬쩍 13 슬피 35 시급히 74 시끌버끌 2 시끌벅적 36 시끌법석 2 시나브로 23 시난고난 7 시들시들 5 시름시름 24 시름없이 9 시무룩히 2 시방 103 시시때때로 10 시시콜콜 35 시시콜콜히 5 시원스레 25 시원시원 35 시원히 24 시종 74 시종일관 4"

/-- soynlp/postagger/dictionary/default/Adverb/adverb.txt:1301-1400 -/
def adverbs13 : List (Str × Nat) := rows! "시큰시큰 2 식식 2 신랄히 5 신속히 84 신중히 86 실로 450 실룩실룩 3 실상 171 실실 23 실없이 12 실은 292 실제 72 실제로 2147 실컷 177 심각히 17 심상히 3 심지어 1024 심히 66 십분 73 싱글벙글 35 싱글싱글 15 싱긋 58 싱숭생숭 9 싱싱 4 싸게 2 싸게싸게 6 싸그리 6 싸늘히 2 싹둑 20 싹둑싹둑 6 싹싹 32 쌉싸름 3 쌍쌍이 9 쌔근쌔근 3 쌔기 2 쌔액쌔액 2 쌕쌕 6 쌩쌩 11 썩둑썩둑 2 쏙쏙 20 쏜살같이 72 쏴아 13 쑤군쑤군 3 쑥쑥 37 쒜엥 2 쓰르람쓰르람 2 쓱싹쓱싹 2 쓸데없이 100 쓸쓸히 31 씁쓰레 6 씨근벌떡 5 씨엉씨엉 2 씩씩 19 씰룩씰룩 3 씽씽 23 아귀아귀 6 아그똥 2 아기자기 45 아기작 2 아낌없이 58 아니 379 아니나다를까 3 아니면 273 아니면은 58 아닌게아니라 9 아둥바둥 8 아득바득 8 아득히 54 아등바등 9 아랑곳없이 63 아련히 20 아롱다롱 3 아른아른 5 아름아름 2 아릿아릿 2 아마도 964 아무데나 2 아무래도 883 아무러면 4 아무렇게나 3 아무리 2733 아무쪼록 27 아무튼 467 아물아물 7 아뭏든 43 아삭아삭 8 아스라이 10 아슬아슬 108 아슴아슴 6 아싸리 4 아야야 2 아예 1221 아옹다옹 8 아울러 652 아웅 10 아웅다웅 10 아작아작 5 아장아장 14 아주 4255 아직 6908"

/-- soynlp/postagger/dictionary/default/Adverb/adverb.txt:1401-1500 -/
def adverbs14 : List (Str × Nat) := rows! "아직아직 2 아찔아찔 4 악착같이 51 안 19954 안녕히 94 안절부절 66 안타까이 8 알뜰살뜰 10 알뜰히 20 알랑알랑 2 알록달록 35 알쏭달쏭 20 알알이 11 알콩달콩 4 암니옴니 4 암만 93 암튼 44 앙상히 3 앞서 511 애달캐달 3 애면글면 7 애석히 3 애오라지 8 애지중지 36 애처로이 2 애초에 3 앵앵 4 야금야금 33 야들야들 8 야아아옹 2 야아옹 6 야앙 10 약간 1522 얌전히 74 양껏 11 양심껏 8 어기적어기적 8 어김없이 221 어느덧 266 어느새 661 어둑어둑 50 어떻게 1470 어떻든 114 어렴풋이 133 어렵사리 42 어룽어룽 2 어른어른 4 어름어름 2 어리버리 3 어릿어릿 10 어물어물 27 어물쩍 13 어서 1015 어서어서 23 어석어석 2 어설피 2 어슬렁 5 어슬렁어슬렁 32 어슬어슬 9 어슴푸레 36 어슷어슷 2 어언 19 어여삐 8 어엿이 4 어영부영 14 어이없이 11 어저께 27 어적어적 3 어정어정 17 어정쩡히 4 어지간히 123 어지러이 17 어질어질 20 어째서 73 어쨌거나 41 어쨌건 3 어쨌든 1048 어쩌구저쩌구 19 어쩌다 286 어쩌다가 130 어쩌면 1295 어쩐지 335 어쩜 67 어찌어찌 31 어찔어찔 6 어차피 581 어처구니없이 6 어흥 3 억지로 404 억척스레 2 언뜻언뜻 20 언제나 2061 언제든지 3 언젠가 911 언필칭 11 얼근히 6 얼금얼금 2 얼기설기 27 얼렁뚱땅 17 얼룩덜룩 11"

/-- soynlp/postagger/dictionary/default/Adverb/adverb.txt:1501-1600 -/
def adverbs15 : List (Str × Nat) := rows! "얼르응 3 얼른 945 얼른얼른 4 얼마나 4471 얼마든지 14 얼마만큼 7 얼마큼 20 얼밋얼밋 2 얼씬 49 얼씬얼씬 3 얼추 25 얼턱덜턱 2 얼토당토 10 얼푸시 7 얼핏 367 얼핏얼핏 5 엄격히 178 엄밀히 82 엄숙히 13 엄연히 101 엄중히 20 엄청 142 엄히 19 업수이 6 없이 8925 엇비스듬히 3 엇비슷이 2 엉거주춤 109 엉겁결에 49 엉금엉금 31 엉엉 72 엊그제 5 엎치락 7 엎치락뒤치락 19 에이취 2 엔간히 6 엠메 3 여간 416 여기 53 여러모로 66 여름내 20 여봐란듯이 2 여북 13 여실히 84 여엉 3 여유로이 5 여적지 7 여전히 2082 여지껏 109 여지없이 88 여차하면 5 여태 199 여태껏 55 여하간 19 여하튼 114 여하히 8 여흐 20 역력히 20 역시 5069 연거푸 61 연년이 2 연방 62 연신 209 연일 4 열라 34 열렬히 38 열성껏 2 열심히 1671 염치없이 3 영구히 25 영락없이 68 영영 139 영원히 513 예쁘장스레 4 예사로 55 예사로이 6 예컨대 348 옛날 6 옛부터 4 오글오글 9 오늘 1088 오다가다 9 오도카니 19 오돌오돌 10 오동통 4 오들오들 27 오락가락 56 오래 2117 오래도록 141 오래오래 100 오랫동안 15 오로지 382 오롯이 14 오르락내리락 23 오목조목 5 오무룩히 2 오물오물 9 오밀조밀 19 오소소 3 오손도손 26"

/-- soynlp/postagger/dictionary/default/Adverb/adverb.txt:1601-1700 -/
def adverbs16 : List (Str × Nat) := rows! "오순도순 23 오슬오슬 12 오싹 67 오싹오싹 9 오죽이나 16 오지적 2 오톨도톨 2 오히려 3659 옥신각신 7 온데간데없이 8 온통 670 올록볼록 4 올망졸망 16 올바로 90 올올이 11 올해 8 옹기종기 47 와그르르 10 와그작 2 와글와글 20 와들와들 24 와락 63 와삭와삭 6 와시락 2 와장창 12 왁자지껄 52 완강히 35 완곡히 3 완벽히 17 완연히 24 완전히 1929 왈랑왈랑 2 왈왈왈 4 왈칵 69 왔다갔다 39 왕성히 5 왕왕 24 왕창 38 왜냐면 140 왜냐면은 30 왜냐하면 1013 왝왝 3 외따로 14 외로이 11 요란스레 13 요란히 6 요령껏 8 요로콤 3 요리조리 27 요새 185 요즘 203 요행히 21 욕심껏 8 용감히 13 용히 2 우걱우걱 2 우굴우굴 2 우글우글 8 우당탕 5 우두망찰 7 우두커니 138 우둘두둘 2 우뚝 254 우뚝우뚝 8 우락부락 9 우렁우렁 13 우루루 20 우루루루루 4 우르르 130 우물쭈물 44 우선 3108 우수수 33 우연히 507 우왕좌왕 14 우적우적 9 우정 18 우줄우줄 4 우중우중 3 우중충 49 우지끈 10 우지직 3 우짜다가 2 우쭐 29 우툴두툴 2 욱신욱신 5 울고불고 27 울그락불그락 2 울근불근 4 울긋불긋 56 울렁울렁 2 울먹울먹 4 울며불며 9 울컥 55 울컥울컥 3 울툭불툭 4 울퉁불퉁 49 움찔 74 움찔움찔 3 움칫 2 움푹 67"

/-- soynlp/postagger/dictionary/default/Adverb/adverb.txt:1701-1800 -/
def adverbs17 : List (Str × Nat) := rows! "움푹움푹 2 웅성웅성 5 웅얼웅얼 8 웅웅 3 워꾹 5 워낙 635 워척 12 워치게 41 원래 503 원만히 22 원망스레 2 원통히 3 원활히 53 월등 51 월등히 45 웩웩 2 웬만큼 88 웽웽 2 위잉 4 윙윙 14 유감없이 20 유난스레 11 유난히 401 유달리 77 유독 194 유들유들 10 유례없이 5 유심히 163 유유히 53 유쾌히 2 육장 2 융숭히 2 으레 280 으르렁꺽 2 으스스 41 으슬으슬 4 으시시 10 으쓱 61 으쓱으쓱 5 으적으적 2 으흐흐 2 은근슬쩍 11 은근히 344 은밀히 116 음매 5 음매애 5 응당 26 응애애 2 응응응 2 의당 23 의례히 2 의뭉스레 2 의외로 262 이것저것 2 이글이글 24 이나마 11 이다지 26 이듬해 4 이따 56 이따가 59 이따금 310 이래봬도 2 이래저래 70 이러고 2 이러구러 2 이러나저러나 2 이러니까 4 이러다가 7 이러면 10 이러므로 4 이러쿵 6 이러쿵저러쿵 28 이럭저럭 17 이럼 4 이렇게 3803 이렇듯 2 이로써 18 이른바 1452 이를테면 393 이리로 93 이리이리 3 이리저리 370 이리하여 107 이만 64 이만저만 35 이만큼 111 이미 6339 이상스레 10 이상히 12 이야말로 10 이어서 197 이왕 115 이왕이면 49 이윽고 346 이윽히 8 이제 7393 이제나저제나 3 이제서야 13 이쯤 86 이처럼 76"

/-- soynlp/postagger/dictionary/default/Adverb/adverb.txt:1801-1900 -/
def adverbs18 : List (Str × Nat) := rows! "이토록 182 익히 110 일껏 11 일단 2007 일렁일렁 3 일부러 611 일약 42 일일이 312 일절 46 일제히 332 일찌감치 190 일찌거니 9 일찌기 48 일찍 1048 일찍이 376 일찍일찍 2 일체 135 일층 46 일테면 16 입때 5 있이 2 잉잉 6 자고로 41 자그마치 44 자근자근 6 자글자글 8 자꾸자꾸 45 자란자란 2 자랑스러이 2 자랑스레 11 자박 2 자박자박 6 자발없이 3 자세히 646 자알 8 자연 132 자연스레 63 자연히 306 자욱이 6 자욱자욱 4 자울자울 2 자유로이 80 자작자작 2 자주자주 10 자칫 417 자칫하면 9 작작 17 잔뜩 716 잔잔히 19 잘 15290 잘근잘근 13 잘록잘록 2 잘못 2334 잠깐 992 잠깐잠깐 9 잠시 1926 잠자코 166 잠잠히 13 장난스레 7 장차 283 재간껏 4 재량껏 3 재빨리 363 재잘재잘 4 재주껏 7 재차 63 쟁쟁 7 저다지 5 저러쿵 6 저렇게 65 저리 200 저릿저릿 4 저마다 275 저만치 118 저만큼 108 저멀리 3 저벅저벅 19 저엉 5 저으기 18 저윽 3 저저금 2 저절로 467 저토록 19 적극 3 적당히 318 적어도 1352 적이 36 적잖이 34 적절히 257 적지않이 12 전부 404 전연 101 전혀 3206 절대 555 절뚝절뚝 6 절래절래 2 절레절레 40 절로 176 절실히 126 절절 5"

/-- soynlp/postagger/dictionary/default/Adverb/adverb.txt:1901-2000 -/
def adverbs19 : List (Str × Nat) := rows! "점점 1635 점점점점 8 점차 1088 접때 7 정갈히 3 정녕 75 정말 4353 정말로 525 정밀히 3 정성껏 91 정성스레 24 정신없이 187 정연히 2 정작 32 정중히 50 정확히 615 제가끔 13 제각각 23 제각기 215 제꺼덕 4 제꺽 10 제대로 2737 제멋대로 146 제발 459 제법 587 제아무리 71 제우 3 제일 268 제풀에 52 조각조각 24 조갈대갈 2 조근조근 6 조금조금 4 조급히 21 조깨 4 조롱조롱 10 조마조마 58 조만간 188 조몰락조몰락 3 조물조물 2 조속히 55 조심스레 85 조심조심 46 조심히 3 조용조용 21 조용조용히 9 조용히 639 조잘조잘 6 조참조참 2 조촐히 3 족족 6 존나 36 존중히 4 졸라 6 졸랑졸랑 3 졸졸 34 졸졸졸 13 졸지에 6 좀처럼 355 좀체로 28 종래 77 종시 3 종신토록 8 종알종알 4 종일 4 종일토록 11 종종 484 좋이 7 좌우간 7 좌우지간 4 좍좍 6 좔좔 12 죄다 140 주렁주렁 59 주로 2494 주룩주룩 8 주르륵주르륵 2 주뼛주뼛 3 주섬주섬 50 주욱 46 주저리주저리 4 주저주저 13 주절주절 4 주책없이 7 주춤 91 주춤주춤 24 죽죽 19 줄곧 330 줄레줄레 7 줄줄 99 줄줄이 141 줄창 34 중얼 3 중얼중얼 21 중요히 2 중히 32 쥐락펴락 2 쥐양 2 즉 5096 즉시즉시 2"

/-- soynlp/postagger/dictionary/default/Adverb/adverb.txt:2001-2100 -/
def adverbs20 : List (Str × Nat) := rows! "즐거이 5 지그시 112 지극히 383 지근지근 4 지글지글 18 지금 6932 지긋지긋 94 지끈지끈 12 지독히 21 지딱지딱 4 지레 98 지분지분 2 지성껏 5 지싯지싯 4 지지리 32 지지지지 3 지축지축 4 직수굿이 3 직접 2807 직직 3 진득이 3 진득진득 7 진배없이 2 진실로 142 진작에 24 진정 253 진종일 6 진짜 1796 진탕 12 질겅질겅 12 질근질근 5 질금질금 3 질끈 58 질질 143 질컥질컥 2 질퍽질퍽 3 질펀히 5 짐짓 165 집적집적 4 집집이 7 짓궂이 6 징글징글 5 징징 8 짜릿짜릿 3 짝자그르 3 짝짝 17 짝짝짝 5 짤까당 2 짤랑짤랑 2 짤막짤막 5 짤막히 2 짤짤 2 짬짬이 13 짭짭 2 짯짯이 2 째깍 5 째깍째깍 3 짹짹짹 2 쨍그랑 11 쨍쨍 36 쩌렁쩌렁 24 쩌쩌 2 쩍쩍 31 쩔쩔 9 쩝쩝 12 쩡쩡 9 쪼글쪼글 3 쪼옥쪽 2 쪼작쪼작 2 쪽쪽 5 쫀득쫀득 6 쫄깃쫄깃 19 쫄랑쫄랑 5 쫄쫄 11 쫑긋쫑긋 2 쬐금씩 4 쭈글 2 쭈글쭈글 13 쭈볏쭈볏 2 쭈빗쭈빗 5 쭈뼛 12 쭈뼛쭈뼛 13 쭈우쭉 2 쭉쭉쭉 5 쭐쭐 2 쮸우잉 2 쮸잉 2 쯧쯧 18 쯧쯧쯧 10 찌꺽 8 찌렁찌렁 2 찌르르르르르르 2 찌르르르륵 2 찌릿찌릿 5 찌찌 7 찍찍 10 찐득찐득 9 찔끔찔끔 13 찔찔 4 차곡차곡 82"

/-- soynlp/postagger/dictionary/default/Adverb/adverb.txt:2101-2200 -/
def adverbs21 : List (Str × Nat) := rows! "차근차근 91 차근히 7 차라리 908 차례차례 59 차일피일 15 차츰 433 차츰차츰 46 차후 7 착착 26 찬찬히 92 찰그랑 6 찰랑찰랑 7 찰싹찰싹 5 찰찰 2 참말로 60 참으로 1102 채곡채곡 4 처얼썩 4 처음 405 처절히 3 척척 63 천만 10 천방지축 11 천상 12 천연스레 5 천천히 959 철두철미 27 철렁 65 철룩철룩 2 철벅철벅 2 철썩철썩 7 철없이 19 철저히 558 철철 47 철커덕 15 철컥철컥 3 첨벙 8 첨벙첨벙 5 첩첩 16 첩첩이 7 청결히 7 초롱 4 초롱초롱 31 초조히 3 촉촉히 20 촐촐히 2 촘촘히 32 총총 11 총총히 41 최근 224 최대한 19 최소한 26 추적추적 18 축축히 11 출렁출렁 4 충분히 1277 충실히 133 충충히 2 측은히 9 츤츤히 3 츳츳 8 층층이 11 치근치근 4 치렁치렁 20 치르 2 치지직 4 치칫 2 칙칙 3 칙칙폭폭 3 칙칙푹푹 2 친절히 32 친친 19 칫칫친 2 칭칭 26 카랑카랑 19 칸칸이 3 캄캄 203 커녕 4 컥컥 7 컹컹 9 켁켁 2 켜켜로 8 켜켜이 28 코커두들두 3 콕콕 8 콜록콜록 2 콜콜 2 콩닥콩닥 6 콩당콩당 2 콩콩 10 콩콩콩콩 2 콰르르릉 2 콱콱 10 콸콸 21 쾅쾅 18 쾌히 27 쿠궁 2 쿡쿡 35 쿨럭쿨럭 4 쿨렁쿨렁 2"

/-- soynlp/postagger/dictionary/default/Adverb/adverb.txt:2201-2300 -/
def adverbs22 : List (Str × Nat) := rows! "쿨룩쿨룩 5 쿨쿨 13 쿵덕쿵덕 4 쿵쾅쿵쾅 3 쿵쿵 41 큼직큼직 18 큼큼 3 킁킁 2 키득키득 11 키들키들 13 킥킥 21 킬킬 17 타다다다닥 3 타닥타닥 3 타박타박 13 탁탁 45 탄탄히 11 탈탈 8 탐탁히 3 탐탐 2 탕탕 26 탕탕탕 7 태만히 4 태연스레 4 태연히 50 태평스레 2 탱글탱글 2 탱자탱자 2 탱탱 17 터덕터덕 2 터덜터덜 25 터무니없이 62 터벅터벅 29 턱없이 107 턱턱 8 털래털래 2 털럭털럭 2 털썩 102 텀벙텀벙 4 텅텅 44 토막토막 13 토실토실 15 토옹 3 톡톡 54 톡톡히 77 톨톨 2 통렬히 5 통상 65 통으로 5 통절히 4 통째 15 통째로 13 통통 71 통틀어 30 투닥투닥 8 투당투당 6 투덕투덕 7 투덜투덜 5 투둑투둑 2 투실투실 3 투철히 6 툭툭 137 툭하면 65 툴툴 4 퉁명스레 7 퉁퉁 81 퉤퉤 9 특별히 586 특히 7034 튼튼히 39 틀림없이 323 틈틈이 92 티격태격 31 팅팅 6 파닥파닥 3 파들파들 5 파라락 4 파릇파릇 18 파삭파삭 2 팍팍 21 판연히 4 판판이 2 팔딱팔딱 17 팔랑팔랑 3 팔짝팔짝 7 팔팔 14 팡팡 13 팽글팽글 2 팽팽 5 팽팽히 43 퍼뜩 65 펄떡펄떡 11 펄럭펄럭 3 펄쩍펄쩍 17 펄펄 102 펑펑 67 편안히 95 편히 139 평생 8 평생토록 17"

/-- soynlp/postagger/dictionary/default/Adverb/adverb.txt:2301-2400 -/
def adverbs23 : List (Str × Nat) := rows! "평소 3 평평히 2 포근히 15 포동포동 10 포실포실 2 폭삭 26 폭신폭신 4 폭폭 5 폭폭폭폭 2 폴짝폴짝 2 폴폴 5 퐁당퐁당 3 퐁퐁 3 표연히 4 표표히 6 푸근푸근 2 푸덩푸덩 2 푸드덕푸드덕 2 푸드득푸드득 2 푸득푸득 4 푸들푸들 8 푸르딩딩 3 푸륵 3 푸릇푸릇 4 푸석푸석 22 푸실푸실 5 푸커커 5 푸하하 4 푹신푹신 9 푹푹 60 푼푼이 11 풀썩풀썩 3 풀죽풀죽 2 풀풀 35 품마품마 3 풍덩 18 풍덩풍덩 3 풍부히 9 풍성히 2 풍족히 2 피둥피둥 16 피식 97 피식피식 5 픽픽 12 필경 86 필시 94 필연코 5 핑핑 18 핑하니 2 하기는 30 하기사 9 하기야 194 하긴 265 하나같이 188 하나하나 277 하늘하늘 16 하다못해 82 하도 331 하루바삐 6 하루빨리 64 하루속히 21 하루하루 65 하릴없이 32 하마터면 117 하물며 153 하아아아 3 하여간 139 하여금 929 하여튼 302 하염없이 103 하옇든 3 하오나 3 하지만 4785 하튼 12 하필 336 하필이면 9 한가득 10 한가로이 20 한가히 6 한갓 108 한결 342 한결같이 234 한꺼번에 663 한껏 273 한낱 126 한데 121 한동안 3 한들한들 2 한때 12 한량없이 3 한바탕 257 한발 101 한번 616 한사코 129 한소끔 13 한시바삐 10 한없이 290 한층 517 한편 1524 한평생 33"

/-- soynlp/postagger/dictionary/default/Adverb/adverb.txt:2401-2500 -/
def adverbs24 : List (Str × Nat) := rows! "할름할름 2 함께 9569 함부로 499 함초롬히 3 항상 2015 항시 54 항용 16 해마다 101 해죽해죽 2 행여 107 행여나 44 허겁스레 3 허겁지겁 122 허나 39 허덕허덕 5 허둥지둥 79 허둥허둥 4 허렁허렁 10 허물없이 7 허술히 5 허우적 3 허우적허우적 4 허위적허위적 2 허위허위 9 허청허청 5 허턱 9 허투루 5 허퉁 2 허허 17 허허허 9 헉헉 9 헐떡헐떡 9 헐렁헐렁 5 헐레벌떡 44 헛되이 30 헤벌쭉 11 헤헤 13 헥헥 2 헬렐레 4 현격히 7 현재 3211 현저히 98 형편없이 29 호락호락 23 호리호리 18 호올로 3 호젓이 10 호호 43 혹시 1102 혹시나 113 혹은 3201 혼곤히 3 혼자 255 홀딱홀딱 3 홀라당 6 홀랑 30 홀랑홀랑 2 홀로 372 홀짝홀짝 5 홀홀 2 홈빡홈빡 2 화끈 105 화끈화끈 10 화들짝 82 확고히 65 확실히 611 확연히 72 활발히 146 활짝 316 활활 51 홧홧 7 황급히 139 황망히 16 황황히 8 홰홰 5 횅횅 3 후끈후끈 12 후다다닥 3 후닥닥 35 후두둑 12 후둑후둑 13 후둘후둘 2 후들후들 35 후딱 37 후딱후딱 4 후련히 3 후리후리 6 후줄근히 8 후후 20 훅훅 9 훌떡훌떡 2 훌러덩 6 훌륭히 37 훌쩍 171 훌쩍훌쩍 26 훌훌 50 훗훗 3 훨씬 2525 훨훨 68 휑뎅그레 2"

/-- soynlp/postagger/dictionary/default/Adverb/adverb.txt:2501-2551 -/
def adverbs25 : List (Str × Nat) := rows! "휘까닥 4 휘둥그레 8 휘딱휘딱 3 휘영청 12 휘우듬히 2 휘적휘적 11 휘청 16 휘청휘청 15 휘휘 41 휙휙 16 휭하니 4 흐느적흐느적 6 흐늘흐늘 3 흐득흐득 2 흐리멍텅 5 흐릿흐릿 3 흐물흐물 27 흐지부지 61 흑흑 20 흔들 5 흔들흔들 18 흔쾌히 66 흔히 2063 흘금흘금 14 흘깃흘깃 2 흘끔흘끔 11 흘낏흘낏 2 흠뻑 151 흠씬 24 흠칫 55 흡사 318 흡족히 2 흥건히 23 흥얼흥얼 7 흥청망청 26 흥흥 3 희끗 2 희끗희끗 43 희뜩 2 희뜩희뜩 3 히물히물 3 히이요 2 히죽 30 히죽히죽 14 힐금힐금 2 힐끔힐끔 27 힐끗 86 힐끗힐끗 8 힘껏 238 힘껏힘껏 2 힘없이 154"

/-- the parts of soynlp/postagger/dictionary/default/Adverb/adverb.txt in order. -/
def adverbsParts : List (List (Str × Nat)) := [adverbs0, adverbs1, adverbs2, adverbs3, adverbs4, adverbs5, adverbs6, adverbs7, adverbs8, adverbs9, adverbs10, adverbs11, adverbs12, adverbs13, adverbs14, adverbs15, adverbs16, adverbs17, adverbs18, adverbs19, adverbs20, adverbs21, adverbs22, adverbs23, adverbs24, adverbs25]

/-- all rows of soynlp/postagger/dictionary/default/Adverb/adverb.txt in order. -/
def adverbs : List (Str × Nat) := adverbsParts.flatten
end Data
