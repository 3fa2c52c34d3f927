import Verif.Py.Words
/-! Generated by tools/gen_packaged.py from soynlp/lemmatizer/dictionary/default/Stem/Adjective.txt: do not edit. -/
namespace Data
open Py

/-- soynlp/lemmatizer/dictionary/default/Stem/Adjective.txt:1-100 -/
def adjectives0 : List (Str × Nat) := rows! "이 179437 하 164600 없 37490 같 27309 크 16112 그렇 16087 많 13321 좋 12277 이렇 8362 어떻 8211 새롭 7179 스럽 6750 있 5243 높 5184 작 4646 쉽 4423 어렵 4285 다르 3690 롭 3686 길 3280 깊 2869 젊 2506 어리 2473 아름답 2212 적 2179 멀 2127 가깝 1962 낮 1953 넓 1858 심하 1800 힘들 1800 이러하 1721 빠르 1660 나쁘 1655 커다랗 1620 짧 1574 아프 1545 늦 1543 엄청나 1459 무섭 1456 지나치 1428 답 1309 싫 1231 똑같 1227 검 1216 수많 1193 희 1151 하얗 1120 가볍 1073 뜨겁 1044 옳 1039 밝 1035 어둡 1032 붉 1025 분명하 991 좁 973 푸르 934 부드럽 916 예쁘 914 즐겁 895 맑 885 약하 882 재미있 881 바쁘 881 무겁 875 강하 867 낯설 785 곱 762 되 760 뛰어나 736 비싸 720 낫 712 편하 684 낡 674 짙 669 조그맣 666 바르 666 놀랍 663 올바르 660 괜찮 657 슬프 655 빨갛 633 거칠 625 흔하 616 춥 568 착하 567 맛있 558 불과하 547 싸 535 저렇 528 굳 522 날카롭 512 멋지 508 친하 507 고맙 493 차갑 491 외롭 487 부끄럽 485 이르 476 반갑 473"

/-- soynlp/lemmatizer/dictionary/default/Stem/Adjective.txt:101-200 -/
def adjectives1 : List (Str × Nat) := rows! "급하 471 굵 463 아무렇 459 알맞 452 느리 449 드물 447 둥글 442 기쁘 441 더럽 438 그러하 433 가늘 430 못하 426 안타깝 416 두렵 404 귀하 399 노랗 394 뒤늦 390 까맣 382 환하 376 아쉽 367 별다르 366 두껍 364 덥 362 괴롭 360 당당하 352 우습 352 세 348 귀엽 346 귀찮 346 어리석 337 못지않 333 파랗 322 얇 315 차 315 점잖 315 손쉽 296 눈부시 294 아깝 282 재밌 280 잘나 268 어지럽 267 그립 267 숱하 263 진하 258 폭넓 254 갑작스럽 254 시끄럽 251 흐리 251 힘차 250 묘하 245 틀림없 244 밉 241 거세 239 두드러지 238 까다롭 238 걸맞 234 참되 233 가쁘 232 힘겹 231 새삼스럽 230 누렇 229 달 229 사납 223 끊임없 220 시커멓 220 끈질기 217 끝없 216 가득하 209 못되 208 고프 204 쓸데없 200 험하 195 비 191 부럽 191 낯익 190 허옇 190 값싸 187 고르 186 못나 185 동그랗 185 모질 184 다름없 182 잦 180 이쁘 176 남다르 173 해서 173 잘 169 세차 163 어떠하 162 서럽 161 벌겋 160 뾰족하 159 위하아서이 159 색다르 158 가엾 155 기막히 153 상관없 152 가파르 151 엷 151 두텁 150"

/-- soynlp/lemmatizer/dictionary/default/Stem/Adjective.txt:201-300 -/
def adjectives2 : List (Str × Nat) := rows! "지겹 149 하필이 147 마지못하 147 벅차 147 익 144 맵 144 밤늦 144 캄캄하 143 엄하 143 배고프 143 게으르 143 어설프 142 매끄럽 141 메마르 140 따갑 140 하찮 138 연하 134 새까맣 133 허 132 터무니없 131 얕 130 비좁 128 잘생기 128 서투르 128 값지 127 가느다랗 127 어이없 127 쓰 125 금방이 122 그르 122 성하 120 기다랗 118 서툴 118 어처구니없 117 천하 117 우스꽝스럽 117 서글프 116 곧 115 너그럽 115 뿌옇 114 멍하 114 멋있 113 그렇어서이 112 여리 112 시리 112 오래 111 쑥스럽 111 머지않 110 헛되 110 잽싸 108 빼어나 108 기름지 108 그만이 108 억세 106 만하 106 질기 105 새파랗 104 섬뜩하 102 추하 102 고달프 101 흡사하 101 시퍼렇 100 독하 98 값비싸 97 유별나 97 짓궂 96 매섭 96 재미없 94 보잘것없 93 호되 93 아슬아슬하 92 싱겁 92 꼼꼼하 91 기나길 87 쓰라리 87 수줍 87 순하 87 저리 87 크나크 86 못생기 85 적잖 84 무덥 83 부질없 82 깜깜하 82 형편없 82 흉하 82 언짢 82 징그럽 82 여간하 82 줄기차 81 둥그렇 81 뻔하 80 재빠르 79 흥겹 79 둔하 79 열띠 78 심심찮 78 겹 77 더디 77 진정하 75"

/-- soynlp/lemmatizer/dictionary/default/Stem/Adjective.txt:301-400 -/
def adjectives3 : List (Str × Nat) := rows! "괜하 75 눈물겹 75 틀리 75 뼈저리 74 새하얗 74 가냘프 74 뽀얗 74 야하 74 안되 73 덜하 73 막다르 72 오죽하 72 딱하 72 어질 71 이니뭐이 71 우렁차 71 역겹 71 시뻘겋 70 별나 70 쓰리 70 철없 69 싱그럽 69 활기차 69 탁하 68 궂 67 짜 67 뚱뚱하 66 왜이 65 묽 65 야무지 65 해롭 64 배부르 63 용하 63 드넓 62 사사롭 62 네모나 62 검붉 62 달갑 62 못마땅하 62 당하 62 뼈아프 61 알차 61 속상하 61 아리 61 쓸모없 60 무디 60 되도록이 59 지긋지긋하 59 퍼렇 59 그대로이 59 관계없 58 한없 57 한결같 57 새빨갛 57 너르 56 높다랗 56 정답 56 능하 56 성가시 56 힘세 55 드높 55 굽 55 이롭 55 분하 55 보드랍 54 그럴싸하 54 정겹 54 목마르 54 시 54 멋쩍 53 아니꼽 53 헤프 53 혹시이 52 머나멀 52 애꿎 52 뻘겋 52 힘없 51 날쌔 51 건방지 50 비탈지 49 옅 49 후하 49 훤하 49 통통하 49 시꺼멓 48 실없 47 소용없 47 부시 47 안쓰럽 47 차디차 46 구슬프 46 험상궂 45 미끄럽 45 뜻있 44 선하 44 화끈하 44 부르 44 구석지 43 외지 43 섣부르 43"

/-- soynlp/lemmatizer/dictionary/default/Stem/Adjective.txt:401-500 -/
def adjectives4 : List (Str × Nat) := rows! "더하 43 웂 43 발갛 42 해맑 42 앳되 42 우중충하 42 덩그렇 42 얄밉 42 미심쩍 42 번거롭 42 당차 41 휑하 41 습하 40 가렵 40 그지없 39 불룩하 39 월등하 39 비뚤 39 조마조마하 39 길다랗 38 아기자기하 38 방정맞 38 다부지 38 애처롭 38 난데없 37 부득이하 37 성기 37 껄끄럽 37 깡마르 37 느닷없 36 후미지 36 울긋불긋하 36 울퉁불퉁하 36 굳세 36 앙증맞 36 드세 36 좁다랗 35 거침없 35 모나 35 그렇잖 35 시원찮 35 쎄 35 약삭빠르 34 부옇 34 구성지 34 격하 34 구질구질하 34 간지럽 34 족하 34 푸르르 33 영락없 33 빤하 33 쪼그맣 33 탐스럽 33 맛없 33 끈덕지 33 뭉클하 33 허하 33 거추장스럽 33 변함없 32 쓰디쓰 32 덧없 32 사이좋 32 흐드러지 32 어여쁘 32 따끔하 32 수없 31 검푸르 31 장하 31 수상쩍 31 중하 31 미덥 31 있어서이 31 돌연하 30 노오랗 30 널따랗 30 맛나 30 을씨년스럽 30 요렇 29 양지바르 29 고되 29 비슷비슷하 29 동떨어지 29 악하 29 꺼멓 29 버겁 29 설 29 마렵 29 파아랗 28 유례없 27 천연덕스럽 27 빈틈없 27 우뚝하 27 볼품없 27 만만찮 27 상스럽 27 새카맣 27 무르 27 네모지 27 먹음직스럽 27"

/-- soynlp/lemmatizer/dictionary/default/Stem/Adjective.txt:501-600 -/
def adjectives5 : List (Str × Nat) := rows! "통하아서이 27 겸연쩍 27 참답 26 아리땁 26 뒤숭숭하 26 어둑어둑하 26 오똑하 26 똥그랗 26 과하 26 우묵하 25 얼토당토않 25 샛노랗 25 구리 25 오래이 25 시원시원하 25 하잘것없 24 무지하 24 매몰차 24 정말이 24 으스스하 24 짙푸르 24 버릇없 24 끈적끈적하 24 잘록하 24 정하 24 올곧 24 가녀리 23 희뿌옇 23 심술궂 23 쪼끄맣 23 말갛 23 멋들어지 23 고작이 23 그릇되 22 그렇게이 22 희끗희끗하 22 길하 22 그득하 22 굼뜨 22 하고많 21 초롱초롱하 21 비리 21 어슴푸레하 21 남모르 21 보얗 21 역하 21 속되 21 뜸하 21 뜨끔하 21 알록달록하 20 급작스럽 20 아낌없 19 자그맣 19 꼬불꼬불하 19 때늦 19 앙칼지 19 볼록하 19 청승맞 19 약 19 별스럽 19 이어서이 19 호리호리하 18 재 18 뭉툭하 18 참하 18 정신없 18 계면쩍 18 어줍잖 18 어딨 18 말랑말랑하 18 되어서이 18 멋적 18 너무하 18 남부럽 17 빛바래 17 구불구불하 17 빠알갛 17 엉거주춤하 17 어리숙하 17 너덜너덜하 17 우연찮 17 쌀쌀맞 17 빼곡하 17 도드라지 17 떫 17 의좋 17 주제넘 17 지리하 17 필요없 17 편찮 17 고분고분하 17 믿음직스럽 17 드럽 17 쓰어서이 16 깎아지르 16 살지 16 어림없 16 뜬금없 16 기운차 16 들쭉날쭉하 16"

/-- soynlp/lemmatizer/dictionary/default/Stem/Adjective.txt:601-700 -/
def adjectives6 : List (Str × Nat) := rows! "휘둥그렇 16 카랑카랑하 16 큼직큼직하 16 뜨끈뜨끈하 16 진배없 16 쨍쨍하 16 섧 16 오목하 16 둥글둥글하 16 반들반들하 16 헐하 16 시끌벅적하 16 무지무지하 15 볼메 15 쫄깃쫄깃하 15 애달프 15 시시콜콜하 15 후끈하 15 희멀겋 15 살갑 15 능글맞 15 걸 15 언제이 15 없어서이 15 질 15 흐물흐물하 15 뻔질나 14 그만두고이 14 쬐그맣 14 희망차 14 거뭇거뭇하 14 그러어서이 14 보송보송하 14 얄궂 14 어떻게이 14 철두철미하 14 희부옇 14 가엽 14 푸석푸석하 14 곤하 14 호락호락하 14 안스럽 14 노엽 14 의하아서이 14 행여이 13 후지 13 케케묵 13 여북하 13 악착같 13 간드러지 13 익살맞 13 함께이 13 차지 13 숨차 13 그럴듯하 13 이냐이 13 긴하 13 띵하 13 헐겁 13 억지로이 12 한갓되 12 걸판지 12 움푹하 12 다시없 12 멀겋 12 잡스럽 12 보람차 12 맹하 12 궁상맞 12 끄떡없 12 어질어질하 12 올망졸망하 11 희디희 11 애꿏 11 꾸밈없 11 부리부리하 11 우렁우렁하 11 암팡지 11 볼썽사납 11 퉁퉁하 11 토실토실하 11 의롭 11 뭉뚝하 11 관하아서이 11 졸립 11 싸하 11 오밀조밀하 11 따끈따끈하 11 똑바르 11 실하 11 발그레하 11 번지르르하 11 오지 11 빡세 11 냉하 11 이다이 11 하염없 10 좆나 10 어김없 10 꾸불꾸불하 10"

/-- soynlp/lemmatizer/dictionary/default/Stem/Adjective.txt:701-800 -/
def adjectives7 : List (Str × Nat) := rows! "대하아서이 10 변변찮 10 가없 10 알쏭달쏭하 10 낯간지럽 10 오아서이 10 길둥글 10 얼룩덜룩하 10 가아서이 10 탱탱하 10 가당찮 10 아연하 10 이라서이 10 더없 9 부스스하 9 대수롭 9 좆같 9 푹신푹신하 9 주책없 9 고깝 9 동글동글하 9 속절없 9 물렁물렁하 9 무궁무궁하 9 쭈글쭈글하 9 들어서이 9 기껍 9 날래 9 제멋대로이 9 같잖 9 다되 9 않아서이 9 수월찮 9 바삭바삭하 9 야물 9 메스껍 9 하고이 9 그렁그렁하 9 안좋 9 먼저이 9 남부끄럽 9 허벌나 8 짜르 8 거멓 8 막돼먹 8 봉긋하 8 속없 8 첩첩하 8 이대로이 8 유들유들하 8 내어서이 8 입바르 8 허물없 8 기똥차 8 한갓지 8 시답잖 8 찡하 8 시건방지 8 피둥피둥하 8 부시시하 8 허렁허렁하 8 좀스럽 8 섹시하 8 쬐끄맣 8 흐벅지 8 성글 8 당연하 8 따습 8 애닯 8 어쩧 8 느릿느릿하 8 밉살스럽 8 박하 8 달르 8 숨김없 7 이라뭐이 7 달디달 7 어뀫 7 금세이 7 꿈같 7 닳아빠지 7 좁디좁 7 관계있 7 야들야들하 7 아니다이 7 데면데면하 7 포동포동하 7 자디잘 7 뚱하 7 옹골지 7 씁쓰레하 7 손색없 7 스스럼없 7 감쪽같 7 재수없 7 고렇 7 열없 7 나긋나긋하 7 곰살궂 7 섬찟하 7"

/-- soynlp/lemmatizer/dictionary/default/Stem/Adjective.txt:801-900 -/
def adjectives8 : List (Str × Nat) := rows! "우락부락하 7 젖 7 옹골차 7 뿌우옇 7 푸지 7 으시시하 7 유하 7 설핏하 7 오뚝하 7 시렵 7 지나아서이 7 감감하 7 새되 6 굵다랗 6 어긋맞 6 엉터리없 6 후리후리하 6 하이얗 6 여지없 6 꼬질꼬질하 6 번들번들하 6 다사롭 6 게슴츠레하 6 뾰죽하 6 고작하 6 듬성듬성하 6 꼬장꼬장하 6 또랑또랑하 6 되잖 6 야멸차 6 번지르하 6 의심쩍 6 뽀송뽀송하 6 넓디넓 6 또박또박하 6 파릇파릇하 6 궁하 6 애띠 6 로맨틱하 6 반듯반듯하 6 달갑잖 6 마땅찮 6 대차 6 성스럽 6 하는가이 6 덜되 6 치렁치렁하 6 가끔이 6 특출나 6 별로이 6 문제없 6 찐득찐득하 6 삐뚤 6 막되 6 거북살스럽 6 시럽 6 물샐틈없 5 배 5 노릇노릇하 5 뜨시 5 저러하 5 무릅쓰고이 5 싯누렇 5 마르 5 독허 5 섬칫하 5 꺼끌꺼끌하 5 둔덕지 5 자애롭 5 좁아터지 5 꺼칠꺼칠하 5 허구많 5 작디작 5 삐죽삐죽하 5 응달지 5 껌 5 잘디잘 5 좋아이 5 나어리 5 쩌렁쩌렁하 5 이러저러하 5 물씬하 5 웅숭깊 5 동글 5 미끈미끈하 5 두서없 5 숫되 5 한량없 5 차근차근하 5 진득진득하 5 몽글 5 하늘하늘하 5 들쑥날쑥하 5 조그만하 5 근질근질하 5 요상하 5 덜떨어지 5 바삭하 5 모지락스럽 5 객쩍 5"

/-- soynlp/lemmatizer/dictionary/default/Stem/Adjective.txt:901-1000 -/
def adjectives9 : List (Str × Nat) := rows! "까슬까슬하 5 눅 5 보아서이 5 크어서이 5 있을까이 5 괄하 5 죽어서이 5 징허 5 도탑 5 아랑곳없 5 곱슬곱슬하 5 있는가이 5 하나같 5 이러 5 짤막짤막하 5 값있 5 부석부석하 5 헌걸차 5 희떱 5 뽀오얗 5 마뜩찮 5 못잖 5 특별나 5 가소롭 5 인상깊 5 째째하 5 넙적하 5 들큰하 5 번하 5 주렁주렁하 5 다이 5 아슬하 5 있을터이 5 누르 5 시장스럽 5 보슬보슬하 5 허여멀겋 5 따시 5 왁자지껄하 5 싫어서이 5 거슴츠레하 5 싶어서이 5 쭈뼛쭈뼛하 5 나아서이 5 낯모르 4 붉디붉 4 턱없 4 받을만하 4 되바라지 4 고슬고슬하 4 조렇 4 다름아니 4 주옥같 4 솔찮 4 헐렁헐렁하 4 향그럽 4 팔아서이 4 짧디짧 4 아무러하 4 유다르 4 초롱하 4 쫀득쫀득하 4 차겁 4 쇼킹하 4 않을까이 4 어쭙잖 4 객적 4 말큰말큰하 4 가열차 4 꾸득꾸득하 4 있다이 4 가즈럽 4 커닿 4 보들보들하 4 않을터이 4 동뜨 4 많아서이 4 쌍스럽 4 숭숭하 4 이니무어이 4 음하 4 두고이 4 맑디맑 4 둥굴 4 반지르르하 4 본데없 4 하릴없 4 멈추어서이 4 번드르르하 4 괴이쩍 4 있겠는가이 4 기차 4 꽁하 4 나즈막하 4 어줍 4 짖궂 4 굴곡지 4 쨍하 4 감미롭 4 아금받 4"

/-- soynlp/lemmatizer/dictionary/default/Stem/Adjective.txt:1001-1100 -/
def adjectives10 : List (Str × Nat) := rows! "싱숭생숭하 4 올록볼록하 4 매끈매끈하 4 곱다랗 4 일부러이 4 던적스럽 4 하고하 4 까지 4 물설 4 맞아서이 4 시덥 4 어찌이 4 뻥하 4 매스껍 4 잘룩하 4 짜릿짜릿하 4 찰지 4 미끌미끌하 4 열쩍 4 그릏 4 퉁글 4 깔깔하 4 까칠까칠하 4 짝 4 않 4 찌르르하 4 짠하 4 염치없 4 되면서부터이 4 읎 4 선뜩하 4 감명깊 4 북실북실하 3 새우어서이 3 쌉싸름하 3 될성부르 3 촌스럽 3 숭하 3 빌리어서이 3 맥없 3 반질반질하 3 있었을터이 3 생때같 3 가지고이 3 삐쭘하 3 얄따랗 3 죽이어서이 3 몽글몽글하 3 앰하 3 않고서이 3 세모나 3 세모지 3 분별없 3 사정없 3 늦게이 3 뾰족뾰족하 3 징글징글하 3 맵차 3 철석같 3 으떻 3 아득하 3 비리비리하 3 넓다랗 3 흠허 3 별하 3 유머러스하 3 어리벙벙하 3 반하 3 닮아서이 3 맨송맨송하 3 꼴사납 3 어느새이 3 곧바르 3 남새시럽 3 맨숭맨숭하 3 보오얗 3 아찔아찔하 3 옹글 3 모지 3 열적 3 먹어서이 3 않는가이 3 껄렁하 3 멋대로이 3 씻기이 3 땡글땡글하 3 퀭하 3 즘잖 3 실답 3 부수수하 3 색스럽 3 곱디곱 3 능글능글하 3 지각없 3 요상허 3 물큰하 3 빠삭하 3 위하아이 3 폭신폭신하 3 쑥쓰럽 3"

/-- soynlp/lemmatizer/dictionary/default/Stem/Adjective.txt:1101-1200 -/
def adjectives11 : List (Str × Nat) := rows! "오죽잖 3 어기차 3 빡쎄 3 자글자글하 3 받아서이 3 향하아서이 3 경사지 3 일없 3 여깄 3 꾸적꾸적하 3 시덥잖 3 싸아하 3 시답 3 쪼글쪼글하 3 을씨년하 3 찐하 3 생뚱맞 3 우쭈렁하 3 대단찮 3 구하아서이 3 선뜻하 3 굴뚝같 3 거꾸로이 3 사근사근하 3 시뜻하 3 느껍 3 북적이 3 다습 3 흐리멍텅하 3 궁글 3 쭈뼛하 3 뾰루퉁하 3 섬뜻하 3 하았을터이 3 못하아서이 3 강파르 3 가찹 3 밉살맞 3 극성맞 3 오동통하 3 아니 3 이르어서이 3 못내이 3 뭣하 3 이이 3 들이 3 제법이 3 맵짜 3 지내어서이 3 깜빡이 3 믿을만하 3 보이어서이 3 젊잖 3 저릿저릿하 3 승하 3 꼬들꼬들하 3 있을만하 3 다르다뿐이 2 나직나직하 2 먹먹하 2 살 2 얼턱덜턱하 2 식 2 취하아서이 2 볕바르 2 내리어서이 2 이글이글하 2 득달같 2 상없 2 빠릿빠릿하 2 다이내믹하 2 감질나 2 얼뜨 2 삐쭉하 2 아리까리하 2 맑고향기롭 2 약아빠지 2 저벅이 2 조고맣 2 뜨 2 철겹 2 주고이 2 다수굿하 2 줄이어서이 2 주고서이 2 없애이 2 푸릇푸릇하 2 기어서이 2 하면서이 2 야물딱지 2 알아서이 2 옴팍하 2 허퉁스럽 2 푸근푸근하 2 별쭝맞 2 속좁 2 걸고서이 2 밉쌀스럽 2 좋은이 2 웁 2"

/-- soynlp/lemmatizer/dictionary/default/Stem/Adjective.txt:1201-1300 -/
def adjectives12 : List (Str × Nat) := rows! "숭허 2 대중없 2 번쩍번쩍하 2 맛깔지 2 여차직하 2 비뚤비뚤하 2 갈데없 2 새말갛 2 읽을만하 2 눈꼴사납 2 거칫하 2 삐뚤삐뚤하 2 구배지 2 훨찐하 2 바자위 2 똘똘하 2 메떨어지 2 치고이 2 잘다랗 2 얇디얇 2 어슷어슷하 2 쾡하 2 게을러빠지 2 끄덕없 2 우리하 2 알록달록허 2 휑뎅그레하 2 습지 2 쌍꺼풀지 2 아귀차 2 모잘르 2 허수룩하 2 상긋하 2 깜짝이 2 주의깊 2 푸르딩딩하 2 크단하 2 암만하 2 하아지이 2 가팔막지 2 않겠느냐이 2 좋아하 2 맵디맵 2 뾰죽뾰죽하 2 꾸덕꾸덕하 2 빙충맞 2 쌩하 2 저러 2 샛되 2 복되 2 뻣세 2 만들만하 2 흐릿흐릿하 2 두들기어패어서이 2 대하아서만이 2 하많 2 쿰쿰하 2 금쪽같 2 단촐하 2 받을터이 2 햐얗 2 어찌하아서이 2 간데없 2 껄렁껄렁하 2 피어리 2 똘망똘망하 2 짙붉 2 거하 2 어슬프 2 괴퍅하 2 남부럽잖 2 훗훗하 2 기 2 물론이 2 휭하 2 넓게이 2 씰데없 2 달근달근허 2 느끼어서이 2 터지어이 2 이지랑스럽 2 살차 2 이오이 2 꾸어서이 2 얼토당토안하 2 나같 2 배다르 2 철벽같 2 이윽하 2 담뿍장이 2 바치어서이 2 되알지 2 또라지 2 따로따로이 2 내면서이 2 뎅그랗 2 숨가쁘 2 얼마나하 2 이왕이 2 손수이 2"

/-- soynlp/lemmatizer/dictionary/default/Stem/Adjective.txt:1301-1400 -/
def adjectives13 : List (Str × Nat) := rows! "에리 2 머르레하 2 슬푸 2 벌렁이 2 제치어두고이 2 시뿌옇 2 갑자기이 2 팽하 2 별미쩍 2 모자르 2 찌릿찌릿하 2 있을거이 2 시끌버끌하 2 모르 2 성마르 2 몰강스럽 2 빤들빤들하 2 더덕더덕하 2 켸켸묵 2 힘있 2 가득이 2 얼금얼금하 2 납작납작하 2 예쁘장스럽 2 일매지 2 밀어버리어라이 2 말나이 2 부얼부얼하 2 보내느냐이 2 시들시들하 2 없느냐이 2 동그렇 2 빡빡하 2 어둑시근하 2 아득아득하 2 근지럽 2 옛스럽 2 거칠거칠하 2 홀로이 2 없는가이 2 우툴두툴하 2 뽀족하 2 순엉터리이 2 허이옇 2 걸죽하 2 드문드문이 2 음충맞 2 능청맞 2 섬찍하 2 꼼꼼스럽 2 더웁 2 버석버석하 2 좋아서이 2 느럭느럭하 2 생기 2 앙징스럽 2 우둘두둘하 2 하았을지이 2 껍진껍진하 2 똘방똘방하 2 섬짓하 2 투실투실하 2 상되 2 새록새록하 2 아니이 2 생게망게하 2 쟁쟁하 2 찌뿌둥하 2 안보이 2 조용조용하 2 붉은색이 2 홧홧하 2 무섭어서이 2 까아맣 2 약빠르 2 즉 2 분명허 2 반지레하 2 귀꿈스럽 2 간당간당하 2 뜨근하 2 검누렇 2 꾸미어서이 2 찾아서이 2 가득차 2 물씬물씬하 2 지 2 말고이 2 삐죽하 2 오달지 2 잔조름하 2 빠닥빠닥하 2 리드미컬하 2 썰렁하 2 우쭐하 2 않다이 2 종요롭 2 뚜껍 2 홀하 2 잡되 2"

/-- soynlp/lemmatizer/dictionary/default/Stem/Adjective.txt:1401-1500 -/
def adjectives14 : List (Str × Nat) := rows! "글썽글썽하 2 맵싸하 2 생급스럽 2 딱이 2 뻘쭘하 2 없을터이 2 여여하 2 앙징맞 2 삿되 2 쭈빗쭈빗하 2 거분거분하 2 자르르하 2 따숩 2 하수상하 2 정갈스럽 2 뇌꼴스럽 2 하이 2 그만큼이 2 부전부전하 2 두리두리하 2 가프 2 얻 2 넓적넓적하 2 착허 2 못미덥 2 불티나 2 따로이 2 이구나이 2 정겨웁 2 못이 2 삐죽이 2 고만이 2 올차 2 보이 2 않느냐이 2 아그똥하 2 하았느냐이 2 꼬지 2 용허 2 이라고이 2 우하 2 개감스럽 2 왁살스럽 2 높아서이 2 번드르하 2 사작바르 2 누릇누릇하 2 빠끔하 2 투박스럽 2 골독하 2 머얼겋 2 앗싸리하 1 숫하 1 훨씬안전하 1 그으르 1 하아서도이 1 단지답 1 나실나실하 1 몽당몽당하 1 미씸쩍 1 썩었을지이 1 아니면서이 1 희끗하 1 복받치어서이 1 피둥하 1 바트 1 되겠지이 1 부족하 1 모르아서이 1 올올하 1 줄 1 퍼릇퍼릇하 1 치루고서이 1 오았소이 1 쌍글하 1 들릭락말락하 1 간곳없 1 않나이 1 식은밥이 1 제법하 1 끌려가면서이 1 감지덕지이 1 해말갛 1 싯벌겋 1 집지 1 몬나 1 대하아이 1 시망스럽 1 씨커멓 1 새촘하 1 희뜩하 1 살는거이 1 무추룸하 1 우렁하 1 뻑세 1 잘록잘록하 1 아뜩아뜩하 1 하는거이 1 버얼겋 1 부들부들하 1"

/-- soynlp/lemmatizer/dictionary/default/Stem/Adjective.txt:1501-1600 -/
def adjectives15 : List (Str × Nat) := rows! "질겅질겅하 1 뻐들겅하 1 갓 1 꼴같잖 1 살천스럽 1 시름겹 1 겉약 1 나뿌 1 하고프 1 누덕누덕하 1 아끼어서이 1 눈꼴시 1 뭉실뭉실하 1 증하 1 저렇게얼마이 1 있어이 1 꾸깃꾸깃하 1 시푸르 1 발칙스럽 1 엿같 1 없도다이 1 의롭게이 1 있을것이 1 힁하 1 이었는가이 1 찔깃찔깃하 1 번지레하 1 따끔따끔하 1 궁시렁거리 1 묻어이 1 어중띠 1 걸어놓을만하 1 없겠는가이 1 기골차 1 이루어지면서부터이 1 울고이 1 깊숙이이 1 징하 1 노릇하 1 햇갈리 1 좋은가이 1 스스럽 1 들쳐업고이 1 열퉁쩍 1 넌지시이 1 신통찮 1 누리끼하 1 없는거이 1 뜻깊 1 나아쁘 1 꿰제제하 1 얌전하 1 즐겁게이 1 하느냐이 1 살는것이 1 죄꼬맣 1 고푸 1 무람없 1 노하 1 나쁘아서이 1 즐기차 1 잊는다이 1 말라이 1 감사납 1 받는터이 1 하아라이 1 남을터이 1 들쑥날쑥이 1 몰랑몰랑하 1 읽어서이 1 꽈당땅하 1 즐기어야하겠지요불안하 1 깔아서이 1 뒤잇어서이 1 들큼새큼하 1 숫지 1 있었을지이 1 기탄없 1 둥그랗 1 다닥다닥하 1 와그르르하 1 새똥빠지 1 우랑우랑하 1 좋을터이 1 되디되 1 검질기 1 어리어서이 1 깎을지이 1 징그랍 1 따글따글하 1 놓고이 1 하아보아야지이 1 혹하 1 열퉁적 1 구찮 1 매달리면서이 1 자다랗 1 섬찢하 1 졸리 1 살똥스럽 1"

/-- soynlp/lemmatizer/dictionary/default/Stem/Adjective.txt:1601-1700 -/
def adjectives16 : List (Str × Nat) := rows! "남짓하 1 구성없 1 분연하 1 따사롭 1 별루이 1 나아서부터이 1 애리애리하 1 곧이곧 1 갖자이 1 수런수런하 1 시누렇 1 미련맞 1 뒤지어서이 1 까슬하 1 빨르 1 오래되 1 에굽 1 넒 1 늘어나아서이 1 산하 1 달라붙는이 1 벌써버텀이 1 아스므레하 1 뚱그렇 1 훌쩍하 1 장가들이 1 쑥씨렵 1 이기어서이 1 연푸르 1 불쑥이 1 오목조목하 1 싸느랗 1 다르냐이 1 잠시이 1 이렇게이 1 아니라서이 1 제치어두고서이 1 드문드문하 1 납짝하 1 신비스럽 1 반드르르하 1 어중삥삥하 1 않는다이 1 나았구나이 1 사아서이 1 변하 1 바로이 1 말캉말캉하 1 흐무러지 1 외롭다이 1 알아야지이 1 짙푸르르 1 빡시 1 날쌉 1 찔끔하 1 뺀질뺀질하 1 되이 1 뽀죽하 1 사각지 1 게을러터지 1 얻어서이 1 곧이 1 흖 1 허우적거리어서이 1 빼빼하 1 마 1 이니까이 1 앉을만하 1 경황없 1 빌어서이 1 푸썩푸썩하 1 내리덥 1 빼나 1 쭈볏쭈볏하 1 못미치어이 1 가랍 1 쨍그렁하 1 힘들어서이 1 미치 1 조그만씩하 1 멀리이 1 울그데불그데하 1 몬생기 1 넘어이 1 우람차 1 맹숭맹숭하 1 굴척지 1 뜹뜨름하 1 진푸르 1 바쁘아서이 1 어떠어떻 1 자깝스럽 1 간들어지 1 ㅣㅆ 1 자릿자릿하 1 땡땡하 1 글 1 집 1 아쉽잖 1 가슬가슬하 1"

/-- soynlp/lemmatizer/dictionary/default/Stem/Adjective.txt:1701-1800 -/
def adjectives17 : List (Str × Nat) := rows! "가능이 1 부수면서이 1 휘두르어서이 1 노골노골하 1 땡그렇 1 소홀하 1 빠안하 1 빨아먹어서이 1 허구허 1 애바르 1 하았을뿐이 1 미처이 1 따끈따근하 1 누우렇 1 틀지 1 글박스럽 1 기분좋 1 떠듬거리면서이 1 진정이 1 숭얼숭얼하 1 어슬어슬하 1 너글너글하 1 서었거라이 1 듣 1 어드렇 1 고이하 1 보았느냐이 1 여기이 1 쓰고프 1 기연가미연가하 1 아롱아롱하 1 대퉁스럽 1 휭둥그레하 1 힘입어서이 1 시커멓뭉투룩허 1 고사하고이 1 시꺼믛 1 덩얼덩얼하 1 잉 1 가는것이 1 누리 1 띄엄띄엄이 1 이따이 1 펑퍼지 1 맨숭하 1 댕그렇 1 넣었다뿐이 1 어성버성허 1 고맙어서이 1 없다 1 질척질척하 1 득시글득시글하 1 험상궃 1 드나들어서이 1 되었는지이 1 내고서이 1 날강날강하 1 덩스럽 1 일찍이 1 밤늦게이 1 노글노글하 1 다함없 1 하면서부터이 1 시원시원허 1 반드시이 1 나았을터이 1 쓰는거이 1 끊 1 죽을지이 1 사무치어서이 1 뽀송뽀송허 1 흠칠하 1 밭 1 민하 1 얼기설기하 1 늙 1 주어서이 1 재싸 1 작다랗 1 자다가이 1 죽어이 1 까뭇까뭇하 1 잘못하았습니다이 1 파들파들하 1 되었나이 1 뼈져리 1 얕으막하 1 덜퍽지 1 호동그랗 1 만지어보면냉정하 1 우세스럽 1 집어치우고이 1 입빠르 1 지겹어서이 1 쌉쓰레하 1 아예이 1 하다이 1 노르 1 얼들 1 찾아가아서이 1"

/-- soynlp/lemmatizer/dictionary/default/Stem/Adjective.txt:1801-1900 -/
def adjectives18 : List (Str × Nat) := rows! "안하았느냐이 1 쪼꼬마 1 기럽 1 미츨하 1 뽀쭉하 1 어물쩡하 1 인정사정없 1 물르 1 맘대로이 1 새차 1 헹뎅하 1 분지르어서이 1 여무지 1 되는가이 1 씨식잖 1 땅땅하 1 펜허 1 잡아서이 1 깎습니까이 1 조그맣게이 1 깜깜허 1 어마 1 철거덕이 1 자잔하 1 동글하 1 감추고서이 1 머엉하 1 시키어서이 1 천덕스럽 1 내겠는가이 1 않아이 1 알뜰살뜰이 1 웃을양이 1 구깃구깃하 1 멀리서이 1 잃어버리었노라이 1 맡았고부유하 1 뽈록뽈록하 1 찾 1 하것이 1 몽총하 1 모이어서이 1 들어오아서이 1 나 1 빠딱하 1 어찌하았느냐이 1 별시럽 1 찌릇하 1 말근말근하 1 뼈지 1 있겠다는것이 1 어더렇 1 후덥 1 남아서이 1 오돌오돌하 1 미안쩍 1 힘겹게이 1 펀펀하 1 지분지분하 1 기다리어서이 1 들어서부터이 1 짜르르하 1 어둡어서이 1 곰살맞 1 뻐들컹하 1 놓치어서이 1 섬닷하 1 깍이 1 같아서이 1 건너어서이 1 꽝꽝이 1 처억하 1 가엷 1 명실공히하 1 아금박스럽 1 둘쑥날쑥하 1 낙케이 1 느끼었음직하 1 깔끄럽 1 풀어서이 1 서거프 1 검실검실하 1 서럽어서이 1 뻗세 1 둏 1 들면서부터이 1 기렇 1 꽝이 1 맨들맨들하 1 되다랗 1 무사히이 1 풍덩하 1 차일피일이 1 없어지는가이 1 우러우렁하 1 늘큰하 1 때리어서이 1 똥똥하 1 지대하 1 하았을까이 1"

/-- soynlp/lemmatizer/dictionary/default/Stem/Adjective.txt:1901-2000 -/
def adjectives19 : List (Str × Nat) := rows! "흘러나오아서이 1 어둑스레하 1 니글니글하 1 들어오고부터이 1 선득하 1 잊어서이 1 민숭민숭하 1 성큼하 1 좋았을터이 1 허전허전하 1 게슴치레하 1 새 1 푸르디푸르 1 이루어지는것이 1 못하는가이 1 맴맴이 1 내다것이 1 새초롬하 1 인하아서이 1 세상없 1 그럭저럭이 1 잇 1 거치장스럽 1 있음직하 1 나쁘다이 1 다랍 1 보내는지혜이 1 곯리어서이 1 헐벗 1 어리버리하 1 고리고리하 1 가닐 1 맨질맨질하 1 맡아서이 1 뿌리깊 1 넓어서이 1 그러찮 1 얌전스럽 1 해이하 1 어푸수수하 1 얍삽하 1 춥다이 1 뜨끔이 1 어띃 1 다니느냐이 1 팅팅하 1 조그많 1 쾌쾌하 1 쾌하 1 팽팽하 1 가파롭 1 꿈벅이 1 쇳되 1 마뜩 1 들쓱날쑥하 1 살랑하 1 저분저분하 1 깐지 1 부득이허 1 께름직하 1 여기어서이 1 시뻐겋 1 지나면서부터이 1 기닿 1 대하이 1 너부죽하 1 듯하 1 오롱조롱하 1 머얼 1 접어놓고이 1 으슬하 1 상하아서이 1 겪었을지이 1 엷붉 1 오싹하 1 설마하 1 걸지 1 찌그뚱하 1 알아라이 1 물매지 1 하았지영원하 1 저떻 1 덜렁허 1 대수롭잖 1 부리어서이 1 내놓 1 않으려는이 1 쌔 1 마참하 1 그렁 1 우연히이 1 안자고서이 1 얄팍얄팍하 1 가풀막지 1 살리어주시오이 1 앙하 1 춥을터이 1 귀찬 1 꾸미 1 개구지 1"

/-- soynlp/lemmatizer/dictionary/default/Stem/Adjective.txt:2001-2100 -/
def adjectives20 : List (Str × Nat) := rows! "짬짬하 1 가맣 1 맺는가이 1 삐뚫 1 잡을터이 1 벌컥이 1 성명없 1 아푸 1 치르고이 1 이옇 1 큼큼하 1 바라는것이 1 없는길이 1 화안하 1 아니었을까이 1 저깄 1 심하아서이 1 꾀죄죄하 1 뜨고이 1 후들후들하 1 낳 1 잡느냐이 1 누기차 1 찰랑찰랑하 1 나들하 1 짤루 1 이란것이 1 생기었을터이 1 단출하 1 더럽어서이 1 뎅그렇 1 채신머리없 1 크디크 1 내면서까지이 1 위두하 1 오돌도돌하 1 흔하아서이 1 약싹빠르 1 진탕되 1 뜨아하 1 삐뚜름하 1 데설궂 1 살만하 1 크렁하 1 싹수없 1 놀라웁 1 다긔차 1 뭉큰하 1 이오나이 1 듣을만하 1 끼리끼리이 1 쏟아지어서이 1 떨어지느라고이 1 꺽세 1 덩이지 1 비쭉비쭉하 1 채이 1 닝닝하 1 희끔희끔하 1 가득허 1 간질간질하 1 접어서이 1 뿌수수하 1 빨 1 고리 1 기이 1 하아먹이 1 아파 1 아프아서이 1 움푹짐푹하 1 아니었는가이 1 하하 1 버성기 1 붕긋하 1 위하아서요이 1 떫은감이 1 선하게이 1 훤허 1 짓꿎 1 패 1 오돌토돌하 1 희푸르 1 줄어들어서이 1 깡총하 1 있구나이 1 부끄럽어서이 1 박은듯하 1 가만가만하 1 헤벌어지 1 후허 1 주겠는가이 1 꼬부랑꼬부랑하 1 소복소복하 1 그침없 1 족 1 영하 1 외우어서이 1 덩그라하 1 들쭉날쭉이 1 추적추적하 1"

/-- soynlp/lemmatizer/dictionary/default/Stem/Adjective.txt:2101-2200 -/
def adjectives21 : List (Str × Nat) := rows! "득실득실하 1 편허 1 이겠지요이 1 하아야하겠다이 1 이만큼이 1 얼룩얼룩하 1 휘청하 1 그립어서이 1 열하 1 깔터이 1 불서럽 1 또릿또릿하 1 흘리어서이 1 철없이이 1 성큼성큼하 1 하아요이 1 자연히이 1 졸망졸망하 1 넘어서이 1 없었던터이 1 바글바글하 1 씩씩거리면서이 1 좋을만하 1 고롭 1 시시껄렁하 1 안당하았을터이 1 게스름츠레하 1 푸실푸실하 1 까리하 1 지나치게이 1 놓 1 느글느글하 1 조글조글하 1 혹여이 1 예쁘장하 1 겔러빠지 1 무뚝하 1 아리송아리송하 1 꼬꼬댁부지런하 1 뜨근뜨근하 1 횡하 1 모루룩하 1 다채롭 1 펄떡이 1 뻔지르르하 1 시쁜하 1 당분간이 1 구차하 1 당하아서이 1 안되어이 1 잡히어다가이 1 깡동하 1 몽톡하 1 걷어서이 1 안씨럽 1 자리 1 푸그락하 1 끌질기 1 들이어서이 1 짜잔하 1 급허 1 툭툭이 1 보들녹진하 1 있다뿐이 1 짝자그르하 1 하았을때이 1 절로이 1 열심히이 1 서스럼없 1 곱아서이 1 비싸아서이 1 있고따사롭 1 궃 1 할랑하 1 만들는가이 1 부석하 1 퍼르스름하 1 좋았느니이 1 넙적넙적하 1 겉 1 잘빠지 1 더하다이 1 어느새에이 1 야실야실하 1 까실까실하 1 않겠는가이 1 까시까시랗 1 뽈갛 1 아슴아슴하 1 빨긋빨긋하 1 언젠가는이 1 바뀌어서이 1 지르르하 1 민둥민둥하 1 나스르르하 1 여물딱지 1 감깜하 1 궁굴 1 갸냘프 1 휘둥그리 1"

/-- soynlp/lemmatizer/dictionary/default/Stem/Adjective.txt:2201-2300 -/
def adjectives22 : List (Str × Nat) := rows! "시푸르둥둥하 1 보자이 1 있었을기이 1 휘번하 1 지나치어서이 1 피우냐이 1 쩔 1 그럴사하 1 턱하 1 풍성풍성하 1 그냥이 1 누르테테하 1 다르구나이 1 곱은자형이 1 수긋하 1 찝찌레하 1 객없 1 이랄만하 1 쫀쫀하 1 삐꿈하 1 휘엿하 1 성부르 1 칩 1 닿을만하 1 쭈빗하 1 걷는가이 1 이러이러하 1 농하 1 독살맞 1 쾅하 1 대면서이 1 쥐고이 1 자발없 1 염하 1 타이트하 1 거치르 1 아웅다웅이 1 갈팡질팡이 1 저렇게이 1 그렇게까지이 1 망하 1 해끗하 1 우뚝우뚝하 1 무지막스럽 1 쭈밋쭈밋하 1 쬐끄만하 1 살는가이 1 반감 1 설웁 1 가뜩하 1 비하 1 우숩 1 오슬오슬하 1 어떡하아서이 1 비슴하 1 아름차 1 길길다랗 1 않으시어서이 1 가아보아야하겠어요이 1 하시이 1 익은물이 1 헐수할수없 1 이야이 1 꼬장하 1 곧이곧대로이 1 실허 1 외 1 검누르 1 중허 1 가깝어서이 1 귀허 1 드물어서이 1 숭굴숭굴하 1 훔치어서이 1 깡깡하 1 들어서면서부터이 1 출렁이 1 보는거이 1 철통같 1 어쩌구저쩌구이 1 이릏 1 스물스물하 1 마주이 1 샛푸르 1 아깝잖 1 해내었을터이 1 살몃하 1 적어서이 1 같을지이 1 입을지이 1 분명하게이 1 잔밉 1 쏟아내아서이 1 예스럽 1 말거나이 1 미덥어서이 1 흥미롭 1 아니겠는가이 1 갖 1 스러 1"

/-- soynlp/lemmatizer/dictionary/default/Stem/Adjective.txt:2301-2400 -/
def adjectives23 : List (Str × Nat) := rows! "차곰차곰하 1 달하아서이 1 풀리어서이 1 다복다복하 1 동곳하 1 성깔지 1 그러느냐이 1 노루푸레하 1 비다시피하아서이 1 헐허 1 밸라 1 맛있어이 1 아스무레하 1 걀쪽하 1 뒤어나 1 들어오는구나이 1 서슴없 1 들어오면서부터이 1 화끈화끈하 1 싸납 1 거름지 1 구하느냐이 1 힘쎄 1 또렷또렷하 1 먹은거이 1 선득선득하 1 디룩디룩하 1 섬하 1 변덕맞 1 늦어서이 1 나부죽하 1 아롱다롱하 1 하아서이이 1 끝장내이 1 푸하 1 어쭙지않 1 높낮 1 찹찹하 1 징글맞 1 연붉 1 부우옇 1 목석같 1 때맞 1 싱검하 1 지키어서이 1 얻어맞은듯하 1 덧붙이어서이 1 섬뜩스럽 1 주착없 1 회붐하 1 올연하 1 들어가아서이 1 치째지 1 허잘것없 1 상하 1 비틀어서이 1 찰싹이 1 더듬는듯하 1 안되어서이 1 쿠리 1 울툭불툭하 1 푸르팅팅하 1 쪼잖하 1 각각이 1 수집 1 빠삭빠삭하 1 담방하 1 보고서이 1 고프아서이 1 옳바르 1 짚 1 강강하 1 엥간하 1 넣어서이 1 쎼 1 하는듯하 1 팽개치고이 1 다보록하 1 아니하 1 비뚜름하 1 끌 1 녹신녹신하 1 씨 1 서글프디서글프 1 반드럽 1 이기냐이 1 가량없 1 부성부성하 1 버리어서이 1 어글어글하 1 멋없 1 칙칙하아서이 1 능글스럽 1 애처럽 1 뜨끔뜨끔하 1 아롱다롱이 1 한스럽 1 싶다이 1 두릿두릿하 1 하는데이 1"

/-- soynlp/lemmatizer/dictionary/default/Stem/Adjective.txt:2401-2500 -/
def adjectives24 : List (Str × Nat) := rows! "하이하 1 되고이 1 아롱지 1 늑실하 1 들터이 1 자그럽 1 옳이 1 높푸르 1 어쭙 1 있었어요움직이 1 어룽어룽하 1 포르족족하 1 곱슬하 1 이라고뭐이 1 꼽은결정적이 1 뛰었을터이 1 과허 1 가느랗 1 뜯어이 1 꺾은것이 1 빨쪽하 1 널럴하 1 던지어서이 1 적다이 1 시그럽 1 감는다이 1 내리이 1 놀랍으리만하 1 죽이 1 깊디깊 1 슬프디슬프 1 고실고실하 1 지끈지끈하 1 뛰는가이 1 없이이 1 푼푼하 1 하게이 1 자작자작하 1 아깝어서이 1 볼성사납 1 대충이 1 이르렇 1 송글송글하 1 듣으나말나이 1 벌렁벌렁이 1 재재이 1 텡텡하 1 빤딱빤딱하 1 미리이 1 으뜨 1 아삭아삭하 1 태우어서이 1 여물 1 따르 1 먹느냐이 1 벌이어서이 1 휘까닥하 1 있는다이 1 강팔지 1 웬간하 1 선들선들하 1 만나아서이 1 이렇다이 1 다니어서이 1 심들 1 놀라 1 요상스럽 1 각별나 1 꼼짝없 1 매끌매끌하 1 보숭보숭하 1 낮아서이 1 존 1 어슴프레하 1 즐거웁 1 강단지 1 까르르이 1 잘못되어서이 1 항상이 1 모루록하 1 그대로의이 1 누릏 1 드리겠습니다이 1 단조롭 1 틉틉허 1 되는길이 1 다숩 1 덩그랗 1 깜찍하 1 중뿔나 1 번쩍번쩍이 1 어스름하 1 다담지 1 빤드름하 1 다디달 1 설키이 1 나가아서이 1 걸고이 1 지었느냐이 1 블룩하 1"

/-- soynlp/lemmatizer/dictionary/default/Stem/Adjective.txt:2501-2600 -/
def adjectives25 : List (Str × Nat) := rows! "경사지이 1 모지락시럽 1 뾰쪽하 1 까부스스하 1 두동지 1 비비어서이 1 만들면서부터이 1 부루퉁하 1 가냐프 1 어찔어찔하 1 있네이 1 다다르아서이 1 이지요이 1 빤질빤질하 1 무안쩍 1 숨어서이 1 낮다뿐이 1 팔랑이 1 맞먹자이 1 심상찮 1 않는다뿐이 1 이군요이 1 티껍 1 훨훨하 1 말똥하 1 제대로이 1 뚱딴지같 1 하만하 1 졸깃졸깃하 1 찌적찌적하 1 듣리이 1 미욱스럽 1 말똥말똥하 1 뭉글퀘퀘하 1 생기어서이 1 곰살갑 1 하았다이 1 짜리몽땅하 1 좁아서이 1 아슴푸레하 1 뽀독하 1 혁혁하 1 뜨르르하 1 같이이 1 가물 1 얼큰하 1 자자분하 1 옳은가이 1 보면서부터이 1 선뜩선뜩하 1 힘지 1 놉 1 묵고이 1 마나이 1 비긋하 1 건성건성이 1 땡그랗 1 팔팔하 1 더불어이 1 오방지 1 퍼어렇 1 살똥맞 1 만무하 1 얼키설키하 1 키어이 1 푸더분하 1 훨씬하 1 허물허물하 1 부움하 1 적이 1 없을거이 1 두었음직하 1 강팍하 1 마시어서이 1 똥글똥글하 1 좋을까이 1 기뚱거리 1 허울좋 1 살큼하 1 재미나 1 슴슴하 1 난하 1 꺾어서이 1 꿈뜨 1 흐리어서이 1 옴폭하 1 고파 1 부여 1 징그랗 1 시원찮아서이 1 머 1 살아서이 1 크다랗 1 벅벅하 1 하는것이 1 아하 1 아릿아릿하 1 똥탕치는거이 1 아리숭아리숭하 1 아니냐이 1"

/-- soynlp/lemmatizer/dictionary/default/Stem/Adjective.txt:2601-2640 -/
def adjectives26 : List (Str × Nat) := rows! "있으나말나이 1 폭폭하 1 아옹하 1 태어나아서이 1 않았다이 1 춥어서이 1 여유있 1 기맥히 1 걷 1 고분고분허 1 돈바르 1 험허 1 어떻하 1 없어지어서이 1 맵어서이 1 태어나면이 1 가뭇가뭇하 1 가팔르 1 물컹물컹하 1 잗다랗 1 공연히이 1 그러다가이 1 바라아서이 1 멋지게이 1 재그럽 1 가증스럽 1 아름아름하 1 하자이 1 시달리어서이 1 매웁 1 않았을터이 1 언찮 1 있느냐이 1 번질번질하 1 생기면서부터이 1 통하아서만이 1 아둥바둥허 1 언덕지 1 희맑 1 힝하 1"

/-- the parts of soynlp/lemmatizer/dictionary/default/Stem/Adjective.txt in order. -/
def adjectivesParts : List (List (Str × Nat)) := [adjectives0, adjectives1, adjectives2, adjectives3, adjectives4, adjectives5, adjectives6, adjectives7, adjectives8, adjectives9, adjectives10, adjectives11, adjectives12, adjectives13, adjectives14, adjectives15, adjectives16, adjectives17, adjectives18, adjectives19, adjectives20, adjectives21, adjectives22, adjectives23, adjectives24, adjectives25, adjectives26]

/-- all rows of soynlp/lemmatizer/dictionary/default/Stem/Adjective.txt in order. -/
def adjectives : List (Str × Nat) := adjectivesParts.flatten
end Data
