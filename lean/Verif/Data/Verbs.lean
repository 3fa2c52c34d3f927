import Verif.Py.Words
/-! Generated by tools/gen_packaged.py from soynlp/lemmatizer/dictionary/default/Stem/Verb.txt: do not edit. -/
namespace Data
open Py

/-- soynlp/lemmatizer/dictionary/default/Stem/Verb.txt:1-100 -/
def verbs0 : List (Str × Nat) := rows! "전해지 10000 이어가 10000 하 416026 있 131727 되 116134 않 43317 보 38121 대하 33686 위하 25049 아니 23503 가 22574 오 18111 받 18020 주 15512 따르 14648 못하 13700 들 13368 쓰 13011 가지 12933 알 12502 살 12185 시키 12035 만들 11835 보이 11262 통하 11192 나오 11143 나 10469 그러 10426 먹 9828 의하 9095 지나 8810 듣 8260 모르 7870 갖 7478 싶 7316 내 6894 놓 6657 찾 6270 두 6261 죽 5839 나가 5835 만나 5825 잡 5510 들어가 5311 앉 5269 서 5250 맞 5142 남 4789 말 4710 관하 4666 타 4600 짓 4500 느끼 4475 일어나 4413 읽 4339 버리 4226 얻 4144 묻 4102 나타나 4019 사 3933 떨어지 3924 치 3873 부르 3787 이루 3673 생기 3555 입 3501 넣 3410 들어오 3356 다니 3283 내리 3269 보내 3224 향하 3189 빠지 3171 알리 3119 열 3010 넘 2998 당하 2936 믿 2867 기다리 2843 나누 2842 비하 2837 이르 2693 떠나 2674 이루어지 2604 돌아오 2600 그리 2600 끝나 2590 열리 2526 세우 2495 지니 2457 걸리 2454 웃 2411 밝히 2394 바꾸 2383 인하 2333 배우 2325 바라보 2272 돌아가 2251 오르 2234 맡 2233"

/-- soynlp/lemmatizer/dictionary/default/Stem/Verb.txt:101-200 -/
def verbs1 : List (Str × Nat) := rows! "지키 2220 마시 2171 걷 2157 팔 2062 모이 2032 나서 2031 삼 2026 올리 2002 잇 2000 낳 1998 흐르 1987 지 1982 붙 1973 잃 1973 달 1972 달리 1963 뜨 1960 미치 1943 갖추 1902 거치 1895 벗어나 1885 자 1885 맞추 1875 돌리 1842 모으 1835 끌 1814 걸치 1795 담 1792 움직이 1790 겪 1788 붙이 1782 울 1747 놀 1737 놀라 1704 옮기 1684 취하 1675 차 1671 다루 1664 잊 1663 일으키 1661 사라지 1640 걸 1621 가르치 1612 나타내 1587 들리 1584 정하 1578 대 1570 올라가 1551 좋아하 1550 놓이 1547 남기 1538 벌이 1536 받아들이 1532 풀 1530 원하 1528 나아가 1520 태어나 1516 지내 1503 눕 1497 전하 1448 변하 1441 들어서 1437 돌 1418 막 1397 찍 1382 즐기 1370 여기 1359 바뀌 1355 데리 1336 던지 1333 꺼내 1327 앞서 1302 뛰 1302 쉬 1302 피하 1301 마치 1290 빼 1284 자라 1268 안 1257 지나가 1257 끼 1255 비 1254 따지 1220 내려오 1200 드러나 1199 참 1198 쓰이 1187 드러내 1182 싸우 1169 벌어지 1161 이러 1158 이어지 1151 이끌 1139 살펴보 1133 불리 1127 살아가 1126 구하 1126 늘어나 1124 안되 1119 가리 1115"

/-- soynlp/lemmatizer/dictionary/default/Stem/Verb.txt:201-300 -/
def verbs2 : List (Str × Nat) := rows! "깨닫 1114 더불 1113 바라 1106 뽑 1100 죽이 1100 찾아오 1068 키우 1051 드리 1050 쌓 1041 피우 1028 어울리 1023 떼 1018 내놓 996 속하 985 흘리 985 벗 981 벌 979 잡히 959 높이 955 터지 955 빌리 952 떨 949 찾아가 945 떠오르 945 잘하 945 들이 937 멈추 936 주어지 933 기르 932 돕 928 맺 926 펴 920 깨 918 숨 912 치르 912 고치 905 쳐다보 903 그치 902 담기 898 모시 892 띠 888 채우 886 감 885 늘 883 심 878 쥐 873 살리 873 닿 873 이기 872 기울이 872 닦 866 젖 863 누르 863 넘기 863 불 856 마르 854 늙 850 둘러싸 849 가져오 841 따 837 줄이 835 지르 829 피 821 펼치 820 부리 818 어쩌 813 끊 807 내려가 806 물 790 쌓이 788 잘못되 785 감추 784 막히 777 차리 775 넘어가 769 씻 769 적 768 달라지 766 살피 766 흔들 757 고르 756 맡기 751 밀 750 싣 746 꾸미 746 몰 741 실리 741 자르 737 내세우 736 먹이 735 밟 733 거두 728 계시 725 가리키 721 무너지 718 앞두 713 울리 712 뿌리 710 쏟아지 698 애쓰 691"

/-- soynlp/lemmatizer/dictionary/default/Stem/Verb.txt:301-400 -/
def verbs3 : List (Str × Nat) := rows! "올라오 689 싸 684 섞이 683 행하 683 덮 681 다가오 679 때리 670 외치 668 끝내 663 띄 657 매달리 656 몰리 654 서두르 645 숨기 641 묶 640 지치 639 묻히 636 쏟 633 넘치 628 퍼지 627 내밀 625 섞 623 그리하 623 누리 616 저지르 615 견디 607 짜 607 머무르 606 챙기 605 켜 604 집 600 줄어들 600 뻗 596 쓰러지 593 지켜보 591 어찌하 590 생겨나 580 건너 577 붓 577 품 575 비추 573 틀리 572 갈 569 알아보 568 태우 567 풀리 563 말리 561 넘어서 557 놓치 556 다하 556 닮 553 닫 549 아끼 549 비치 547 썩 545 앓 544 날리 543 없애 542 찾아내 540 커지 539 강하 533 합치 533 들여다보 533 미루 530 더하 530 익히 529 깔 523 뚫 522 붙잡 522 신 520 굽 520 빛나 518 끓이 518 바치 518 시달리 517 만지 516 깔리 513 들르 513 끼치 513 뒤지 513 돌아보 512 파 511 살아오 506 달하 506 처하 506 깎 505 부딪치 502 버티 500 잠기 500 두르 500 가하 499 박히 498 헤어지 498 그만두 497 머물 497 쏘 497 잠들 494 꾸 493 바르 491 밀리 489"

/-- soynlp/lemmatizer/dictionary/default/Stem/Verb.txt:401-500 -/
def verbs4 : List (Str × Nat) := rows! "돌아다니 488 털 487 맞서 486 택하 486 달려가 485 떠들 479 팔리 477 일어서 477 박 474 잃어버리 472 훔치 470 숙이 468 지우 468 빚 466 빼앗 465 떨리 463 흔들리 463 늘리 462 추 457 스치 455 새기 454 허 454 모자라 452 알아듣 449 꺾 449 벌리 447 걸어가 445 안하 445 흩어지 444 묵 444 갇히 442 매 439 씌 435 떠올리 434 사귀 433 쫓기 432 줍 430 빌 426 비우 424 얽히 423 빨 423 틀 419 찌르 416 접하 415 돌아서 414 다지 413 따라가 407 헤매 405 꿈꾸 401 날 399 노리 397 줄 394 담그 392 싫어하 390 녹 389 빼앗기 388 다투 388 접어들 387 적히 386 일 386 씹 386 기대 383 기 381 다듬 381 풍기 380 얹 377 뛰어들 374 찌 374 쫓 373 오래되 372 도와주 371 달려오 371 달아나 368 배 367 가르 367 다녀오 366 감싸 365 둘러보 365 오가 364 다치 364 갚 364 베 362 새 360 힘입 359 상하 359 안기 358 두드리 356 펼쳐지 354 깨지 354 가꾸 354 떨어뜨리 352 짚 349 겹치 347 돌보 345 가라앉 344 꽂 344 치우 344 뒤집 343 굶 343 주고받 342"

/-- soynlp/lemmatizer/dictionary/default/Stem/Verb.txt:501-600 -/
def verbs5 : List (Str × Nat) := rows! "뜯 342 내려다보 342 다가가 337 물리 336 솟 335 다스리 335 다물 333 마주치 333 반하 332 벗기 332 잇따르 331 받치 331 구르 330 끄 328 물러나 328 소리치 327 접 326 생각나 323 깨어나 322 끼우 321 내다보 321 건네 318 떠돌 317 날아가 317 가져가 317 되찾 314 꼽 313 망설이 313 긋 313 갈라지 312 아니하 312 터뜨리 312 들려오 311 앞세우 311 엮 311 얼 311 꺼지 310 붙들 308 닥치 308 메 307 잘못하 307 뒤따르 306 질리 306 빠져나가 306 잊어버리 305 엎드리 304 묶이 304 업 303 내버리 303 늘어놓 302 당기 300 삼키 300 지나치 298 번지 297 넓히 297 달래 297 덮이 295 말미암 293 일컫 293 찢 293 닫히 293 사로잡히 292 웃기 292 앞장서 291 도망치 291 입히 291 늘어지 290 외우 290 살아남 289 딸리 287 끌리 287 낮추 287 속이 287 떨치 284 뛰어넘 283 쓸 283 휘두르 282 삶 281 끌려가 281 병들 280 더듬 280 끓 279 찍히 279 메우 279 헤치 278 맛보 275 거듭하 274 튀 272 흘러가 270 번갈 269 인정받 269 익 268 드나들 266 어리 266 책임지 266 나르 265 주저앉 263 꾸리 263 토하 263 거스르 262"

/-- soynlp/lemmatizer/dictionary/default/Stem/Verb.txt:601-700 -/
def verbs6 : List (Str × Nat) := rows! "망하 262 집어넣 261 들뜨 260 자라나 259 잘되 259 달려들 258 어긋나 258 놀리 257 거느리 255 흘러나오 254 채 254 덧붙이 253 거르 253 올려놓 252 넘어지 252 끌어들이 251 볶 251 베풀 250 가로막 249 내려놓 248 맺히 248 두려워하 247 찢어지 246 내주 246 나뉘 245 숨지 245 부풀 245 부서지 245 띄우 245 가로지르 244 굴리 243 끼이 242 타고나 241 잊히 240 건지 240 찾아보 240 늘어서 238 물어보 238 뚫리 237 썰 237 바로잡 237 따라오 237 긁 236 빼놓 235 비비 235 트 234 널리 233 건너가 233 캐 233 어우러지 228 튀어나오 228 건드리 228 뭉치 227 부딪히 227 끊어지 227 두들기 226 내보내 226 식 225 물들 225 끄덕이 223 괴롭히 222 쫓겨나 222 힘쓰 222 웅크리 221 제치 221 중얼거리 221 빠져나오 221 퍼붓 221 부러지 219 뽑히 219 부치 219 내걸 216 곁들이 214 크 213 선보이 213 젓 212 흘러내리 212 깨뜨리 212 걸어오 211 헤아리 211 부수 208 범하 208 쏠리 207 권하 207 굳어지 206 되돌리 203 재 203 굴 202 불러일으키 201 꿇 200 반짝이 200 짊어지 198 쓰다듬 198 앉히 198 응하 197 잡아먹 197 저러 197 해보 197 굳 196 달라붙 196"

/-- soynlp/lemmatizer/dictionary/default/Stem/Verb.txt:701-800 -/
def verbs7 : List (Str × Nat) := rows! "문지르 196 굽히 196 논하 196 기울 196 꺼리 195 날아오 194 달리하 194 둘러싸이 193 가두 193 매달 192 살아나 192 뱉 192 끊기 191 들려주 191 낫 191 덜 190 길들이 190 씌우 189 어기 188 드리우 188 내던지 188 주되 187 몰려들 187 찌푸리 187 꽂히 185 잠자 185 겸하 185 파고들 185 속 184 치우치 183 부추기 181 얼어붙 180 지껄이 180 스며들 179 사들이 179 내뱉 179 내려앉 178 망치 178 떠나가 178 해내 178 돋보이 177 일깨우 177 노려보 176 뒤섞이 175 세 175 알아내 175 눌리 174 굶주리 174 짜이 174 비웃 174 쑤시 174 움켜쥐 173 푸 173 쪼개 173 물러서 172 보태 172 면하 171 졸 171 휩쓸 170 꺾이 170 끌어내 170 임하 169 돌이키 168 뿌리치 168 맴돌 168 되돌아가 166 미끄러지 165 내키 165 춤추 165 찾아다니 165 합하 165 도망가 165 밤새 164 무릅쓰 164 끌어안 164 돋 164 뒤집어쓰 163 물리치 163 털어놓 163 꾀하 163 피어나 162 올라서 162 맞물리 160 두드러지 160 가시 160 파헤치 160 덩달 159 알아차리 159 뿜 159 싸이 158 얻어맞 158 불타 158 고이 158 좇 158 뻗치 158 빼내 158 이 157 꿰뚫 157 모여들 157 젖히 157"

/-- soynlp/lemmatizer/dictionary/default/Stem/Verb.txt:801-900 -/
def verbs8 : List (Str × Nat) := rows! "데려가 157 딛 156 껴안 156 얹히 156 녹이 156 짖 156 같이하 156 되새기 155 일삼 155 해치 155 조르 155 오르내리 154 트이 154 적시 154 서리 152 치솟 152 들여놓 152 꼽히 151 머금 151 치밀 151 잘리 151 미워하 151 가다듬 151 빠뜨리 151 되살리 151 늦추 151 주무르 150 패 150 견주 149 잘살 149 깨물 149 빚어지 148 몰려오 148 얽매이 148 통틀 147 깨어지 147 뒹굴 147 갈아입 145 괴 145 매기 145 다가서 145 걸터앉 144 비키 143 꿰 143 내쉬 143 따라다니 143 되돌아오 143 치닫 142 튀기 142 읽히 141 기웃거리 141 깨우 140 멎 140 펴내 139 쳐들 139 넘어오 139 설치 139 솟구치 138 거들 138 엇갈리 138 찧 138 등지 137 휩싸이 137 헐 137 기뻐하 137 드러눕 136 받들 136 섬기 136 감기 136 늦 136 내려지 135 좁히 135 쪼그리 134 타오르 134 들어앉 134 금하 134 뒤떨어지 134 새우 134 뛰어가 134 그릇되 133 찌들 133 이끌리 132 뵈 132 훑 132 뺏 132 뒤잇 131 연잇 131 뛰어다니 131 얻어먹 131 사로잡 131 맞대 130 내뿜 130 나돌 130 머뭇거리 130 서슴 129 기울어지 129 끌어올리 129 일구 129 붙잡히 128 찔리 128"

/-- soynlp/lemmatizer/dictionary/default/Stem/Verb.txt:901-1000 -/
def verbs9 : List (Str × Nat) := rows! "누비 128 들키 128 까 128 휘 128 끊이 127 바래 127 다다르 127 쫓아가 127 걷잡 126 깃들 126 잠그 126 달아오르 126 읊 126 파묻히 125 저물 125 깨우치 124 시들 124 나무라 124 들추 124 덤벼들 123 처지 123 소문나 122 마음먹 122 굳히 122 꼬 122 잡아당기 122 홀리 121 솟아오르 120 벼르 119 비틀 119 끼얹 119 꼬이 119 보살피 118 부르짖 118 벗겨지 118 삼가 118 데려오 118 우거지 117 일그러지 116 엿보 116 먹히 116 도사리 115 불어오 115 앞지르 115 내쫓 115 절 115 이어받 114 구부리 114 자칫하 113 비틀거리 113 휩쓸리 113 못살 113 떨구 113 닳 113 쭈그리 112 잇달 112 밀려오 112 망가지 112 스미 111 늘어뜨리 111 허물 111 돌아다보 111 무너뜨리 110 밀려나 110 에워싸 109 몸담 109 개 109 꾸짖 109 돌려주 109 흐트러지 107 파내 107 속삭이 107 몰아넣 107 결정짓 106 뒤집히 106 이름나 105 자리잡 105 밀어내 105 어루만지 105 시집가 105 찡그리 105 짓밟 105 달구 105 누 105 불어넣 104 재우 104 반기 104 떠맡 104 끼어들 104 기하 104 흐리 104 얼룩지 103 그리워하 103 불거지 103 넘나들 103 돋우 103 덮치 103 우기 103 허물어지 103 외 103"

/-- soynlp/lemmatizer/dictionary/default/Stem/Verb.txt:1001-1100 -/
def verbs10 : List (Str × Nat) := rows! "불러내 103 만하 102 들어차 102 뚫어지 102 저버리 102 훑어보 102 둘러앉 101 자아내 101 흐느끼 101 되살아나 101 식히 101 비집 100 곤두세우 100 건너오 100 돋아나 100 뵙 99 짓누르 99 물들이 99 다녀가 98 엎어지 98 설레 98 퍼뜨리 98 악물 97 몰아내 97 밀치 97 빨리 97 움츠리 97 욕하 97 부릅뜨 96 앞당기 96 가라앉히 96 밝 96 물려받 95 휘말리 95 살찌 94 오리 94 알아주 94 놔두 93 두리번거리 93 거슬리 93 들여오 93 조이 93 벌거벗 92 꼬집 92 휘젓 92 부풀리 92 내치 91 몰아치 91 뒤틀리 91 뒤흔들 91 베끼 90 엉기 90 때우 90 억누르 90 갔다오 90 더럽히 90 한하 89 놓아두 89 불어나 89 지지 89 뒤쫓 89 쫓아다니 89 나아지 89 넘겨주 89 쫓아오 89 매이 88 뒤덮이 88 뒤덮 88 엎 88 눕히 88 쪼 88 들이대 88 박차 87 헤엄치 87 울부짖 87 절이 87 감돌 87 쫓아내 87 번쩍이 86 눈뜨 86 붉히 86 애타 85 처박히 85 함께하 85 빗나가 85 날뛰 85 따돌리 85 밀려들 85 마주하 85 기어들 85 흘러들 85 처박 84 쏘아보 84 가져다주 84 꿈틀거리 84 디디 84 줄짓 83 기리 83 끌어당기 83 허덕이 83"

/-- soynlp/lemmatizer/dictionary/default/Stem/Verb.txt:1101-1200 -/
def verbs11 : List (Str × Nat) := rows! "들먹이 83 싹트 83 뛰어내리 83 재미나 82 뛰쳐나오 82 버림받 82 몰려가 82 기어오르 82 헤집 81 가로채 81 팽개치 81 졸리 81 밝혀내 81 점하 80 본뜨 80 본받 80 졸이 80 찢기 80 때 80 화나 79 도맡 79 눈감 79 올려다보 79 슬퍼하 79 소스라치 78 뒤엎 78 아우르 78 까먹 78 거닐 78 타이르 78 요하 77 우러나 77 다그치 77 올라타 77 씻기 77 쐬 77 낚 77 어떡하 77 짜내 77 되돌 76 달이 76 덤비 76 점치 76 불러들이 76 서성거리 76 칭하 76 튕기 76 밀어붙이 76 되돌아보 76 힘주 75 빚어내 75 겨누 75 치켜들 75 휘어지 75 떠밀리 75 보여주 75 쑤 75 물러가 75 물려주 75 갈기 75 걷히 75 뒤엉키 74 붙들리 74 괴로워하 74 들어맞 74 엉키 74 빨아들이 74 연달 73 거들떠보 73 찌그러지 73 몰아쉬 73 들끓 73 두근거리 73 붐비 73 무르익 73 뒤적이 73 핥 73 풀어지 73 내보이 73 늘이 73 터놓 72 동떨어지 72 날아다니 72 짓눌리 72 뽑아내 72 데우 72 끄집어내 72 뛰어오르 72 대들 72 밟히 72 들어주 72 헹구 72 쬐 72 헤어나 71 믿기 71 틀어박히 71 발하 71 파묻 71 훔쳐보 71 불태우 71"

/-- soynlp/lemmatizer/dictionary/default/Stem/Verb.txt:1201-1300 -/
def verbs12 : List (Str × Nat) := rows! "팔아먹 71 부러워하 70 갈리 70 손꼽히 69 보내오 69 들이닥치 69 맞닿 69 갸웃거리 69 잡아가 69 내비치 69 지나오 68 버무리 68 할퀴 68 죄 68 뽐내 68 짓밟히 68 맞먹 67 풀려나 67 비끼 67 거듭되 67 맞붙 67 둘러서 67 골 67 써먹 67 불러오 67 작아지 67 뒤돌아보 67 피어오르 66 뛰놀 66 빼돌리 66 펄럭이 66 봐주 66 뛰어나오 66 빗 66 못쓰 66 녹슬 65 기억나 65 걸려들 65 무서워하 65 깎이 65 들이마시 65 깨치 65 뺏기 65 해치우 65 못되 65 눈여기 64 손잡 64 데 64 뿜어내 64 웃돌 64 불리우 64 시집오 64 들락거리 64 가려내 64 지피 64 얼버무리 64 그을리 63 먹고살 63 얽 63 저미 63 차오르 63 써내 63 꿰매 63 쓰러뜨리 63 투덜거리 63 댕기 63 치루 63 끓어오르 62 놓아주 62 짜르 62 겁나 62 비기 62 다리 62 들이밀 62 성나 61 겁먹 61 떠다니 61 뉘우치 61 올라앉 61 접히 61 뒤바뀌 61 뜨거워지 61 멀리하 61 패이 60 구겨지 60 손꼽 60 빗대 60 수놓 60 떠돌아다니 60 갈아타 60 구기 60 여쭈 60 쳐들어오 60 몰아붙이 60 까지 59 떠나오 59 우러나오 59 기어가 59 휘감 59 따라잡 59"

/-- soynlp/lemmatizer/dictionary/default/Stem/Verb.txt:1301-1400 -/
def verbs13 : List (Str × Nat) := rows! "내딛 59 긷 59 틀어막 59 걷어차 59 부둥켜안 58 치키 58 헐벗 58 움켜잡 58 차려입 58 업히 58 여의 58 울먹이 58 솟아나 58 찾아들 58 억눌리 58 내맡기 58 틈타 57 내지르 57 물어뜯 57 고하 57 눈여겨보 57 되짚 56 따오 56 떠받치 56 벌어들이 56 사무치 56 앗 56 말려들 56 내몰 56 잡혀가 56 뜯어보 56 내려다보이 55 정들 55 힘들이 55 신나 55 농사짓 55 보듬 55 추리 55 데치 55 흘기 55 뀌 55 얼리 55 맞히 55 들이키 55 우러르 54 가누 54 겨루 54 넘겨받 54 가만있 54 뛰쳐나가 54 어지럽히 54 여미 54 놀래 54 어른거리 53 제하 53 깃들이 53 야단치 53 깔보 53 뜯어내 53 건너다보 53 들치 53 뛰어오 53 지어내 52 휘청거리 52 굽어보 52 내리치 52 굴러가 52 뒤척이 52 풀어놓 52 돌려보내 52 갈라놓 52 되묻 52 부닥치 52 주무시 52 삭 52 그늘지 51 벗어던지 51 뛰어나가 51 삭이 51 쩔쩔매 51 잠재우 51 구부러지 50 아파하 50 집어던지 50 허둥대 50 널 50 붇 50 잡아내 50 이리하 49 가로놓이 49 반짝거리 49 꼬부라지 49 못미치 49 날아들 49 나다니 49 집어먹 49 풀어내 49 잡수 49 불사르 49 더듬거리 49"

/-- soynlp/lemmatizer/dictionary/default/Stem/Verb.txt:1401-1500 -/
def verbs14 : List (Str × Nat) := rows! "빛내 49 헷갈리 49 굴러다니 48 맞잡 48 나부끼 48 붉어지 48 떠받들 48 쏘다니 48 부대끼 48 봉하 48 슬 48 해묵 47 피나 47 준하 47 치이 47 간추리 47 즐거워하 47 으깨 47 알아채 47 빼먹 47 부끄러워하 47 아물 47 캐내 47 탐내 47 후려치 47 투덜대 47 자빠지 47 퍼내 47 발가벗 46 어찌되 46 주춤하 46 어슬렁거리 46 잦아들 46 지나다니 45 옮 45 으르렁거리 45 숨죽이 45 날아오르 45 뜨이 45 맞닥뜨리 45 뜯기 45 캐묻 45 덮어놓 44 오래가 44 돋구 44 멍들 44 나뒹굴 44 뒤처지 44 곤두서 44 휘날리 44 스러지 44 내젓 44 떠넘기 44 허우적거리 44 빨개지 44 키 44 뛰치 43 이글거리 43 번들거리 43 돌아앉 43 아쉬워하 43 다시 43 몰아가 43 끝마치 43 청하 43 담아내 43 서성이 43 맞아들이 43 내팽개치 43 부여잡 42 자지러지 42 쓸리 42 쏘이 42 거머쥐 42 거둬들이 42 나자빠지 42 끄르 42 떠내려가 42 거리 42 종잡 41 버금가 41 끄집 41 내리쬐 41 몰라보 41 부어오르 41 겁내 41 땋 41 쥐어짜 41 돌아가시 41 뒤따라오 41 숨어들 41 뿌리내리 41 규정짓 41 파먹 41 부비 41 내몰리 41 채이 41 둘러대 41 밤새우 40 둘러메 40"

/-- soynlp/lemmatizer/dictionary/default/Stem/Verb.txt:1501-1600 -/
def verbs15 : List (Str × Nat) := rows! "내리깔 40 업신여기 40 밑돌 40 남아돌 40 긁히 40 떠나보내 40 퍼마시 40 깜박이 40 디밀 40 받아먹 40 흩 40 둘러치 40 돌려놓 40 엿듣 40 내려서 40 처넣 40 경사지 39 돋치 39 타들 39 빌붙 39 발맞추 39 무찌르 39 으스대 39 빻 39 읊조리 39 틔우 39 꼬시 39 들추어내 39 귀담 38 움키 38 싸매 38 번득이 38 가르키 38 헝클어지 38 공들이 38 비뚤어지 38 헐떡이 38 포개 38 맞아떨어지 38 깁 38 처먹 38 따먹 38 사리 38 북돋우 38 되뇌 38 낚아채 38 묻어나 37 몰려나오 37 복받치 37 손대 37 잡아끌 37 훌쩍거리 37 버둥거리 37 벗어지 37 마지않 37 거듭나 37 뉘 37 꽃피 37 뭉개 37 윽박지르 37 장난치 37 만지작거리 37 쪼이 37 얼싸안 36 허기지 36 번뜩이 36 출렁이 36 웅성거리 36 더러워지 36 몸부림치 36 엿보이 36 내닫 36 나앉 36 내오 36 으쓱하 36 들어내 36 짓이기 36 헐리 36 오싹하 36 짧아지 36 큰소리치 36 내동댕이치 36 줄잡 35 헐떡거리 35 닥쳐오 35 끌려오 35 다잡 35 흥얼거리 35 겹쳐지 35 따라붙 35 울렁거리 35 겉돌 35 썩이 35 휘어잡 35 들여다보이 34 판치 34 집어치우 34 북돋 34 엎치 34 뿌리박 34"

/-- soynlp/lemmatizer/dictionary/default/Stem/Verb.txt:1601-1700 -/
def verbs16 : List (Str × Nat) := rows! "오락가락하 34 건네주 34 야위 34 누이 34 깔깔거리 34 동여매 34 막아서 34 움츠러들 34 움트 34 열어젖히 34 맡아보 34 놀아나 34 주름잡 34 특징짓 34 떠맡기 34 까불 34 떠밀 34 뒤적거리 34 곪 34 뒤돌 33 죽치 33 바라보이 33 꿇어앉 33 우글거리 33 먹혀들 33 치켜올리 33 일렁이 33 이지러지 33 도려내 33 글썽이 33 화끈거리 33 무르 33 빈둥거리 33 차이 33 찡하 33 떠보 33 기죽 33 쥐어뜯 33 혀 33 그르치 33 뜯어고치 33 손보 33 못가 33 파이 32 못이기 32 굽이치 32 매만지 32 뒤바꾸 32 몰려다니 32 들여보내 32 줏 32 끄덕거리 32 비꼬 32 축내 32 돌아눕 32 내다보이 31 씹히 31 주리 31 노닐 31 여위 31 누그러지 31 자시 31 걷어올리 31 지새우 31 무치 31 되씹 31 바라다보 31 넘보 31 뜯어먹 31 따라나서 31 후비 31 멋모르 30 때려치우 30 부도나 30 번쩍거리 30 휘돌 30 건네받 30 눌러쓰 30 빗발치 30 내디디 30 씩씩거리 30 까딱하 30 버려두 30 휘몰아치 30 도둑맞 30 여물 30 보채 30 꾀 30 풀어헤치 30 밀어닥치 30 안치 30 축이 30 다독거리 30 안가 30 내빼 30 으뜸가 29 굴하 29 부라리 29 몰르 29 어르 29"

/-- soynlp/lemmatizer/dictionary/default/Stem/Verb.txt:1701-1800 -/
def verbs17 : List (Str × Nat) := rows! "파하 29 카 29 나붙 29 안타까워하 29 불붙 29 건너뛰 29 귀여워하 29 비틀리 29 혼나 29 망가뜨리 29 부시 29 동이 29 빨아먹 29 배기 29 메꾸 29 눈멀 28 암만하 28 뒤로하 28 걷어붙이 28 혼내 28 그을 28 토라지 28 눌러앉 28 부르트 28 주춤거리 28 발가벗기 28 뻐기 28 쥐어박 28 떠벌리 28 고마워하 28 가리우 28 틀어지 28 꼼짝하 27 설익 27 부딪 27 삐걱거리 27 널브러지 27 발리 27 빚지 27 뒤얽히 27 패하 27 연하 27 재잘거리 27 뒤섞 27 뛰어놀 27 쳐들어가 27 결론짓 27 못보 27 치어다보 27 우물거리 27 끝맺 27 퉁기 27 화하 27 잦아지 27 멀 27 닦이 27 화내 27 졸라매 27 아로새기 27 쪼들리 27 휘둘리 27 잡아먹히 27 끌어내리 27 짤르 27 썩히 27 얼빠지 26 배이 26 자랑삼 26 싸잡 26 손들 26 빈정거리 26 흘겨보 26 말라붙 26 살찌우 26 흘러오 26 깔깔대 26 곯 26 갉아먹 26 오그라들 26 솎 26 묵히 26 표하 26 내달리 26 깍 26 노하 26 돌려받 26 골라내 26 헛갈리 26 맞부딪치 26 써넣 26 적어지 26 쳐주 26 장난삼 25 흠잡 25 뒤서 25 해지 25 듯하 25 죄짓 25 찾아뵙 25 물밀 25"

/-- soynlp/lemmatizer/dictionary/default/Stem/Verb.txt:1801-1900 -/
def verbs18 : List (Str × Nat) := rows! "소용돌이치 25 여닫 25 서둘 25 얼씬거리 25 제끼 25 뒤틀 25 도지 25 껴입 25 너무하 25 비켜서 25 깜박거리 25 아우성치 25 오므리 25 떠안 25 꽃피우 25 몰아세우 25 추스르 25 메이 25 밑지 25 곤두박질치 25 반가워하 25 족치 25 헛디디 24 꿈틀대 24 울려오 24 어림잡 24 우짖 24 설키 24 째지 24 다가앉 24 옮아가 24 고함치 24 옥죄 24 넘쳐흐르 24 어려워하 24 고 24 헤 24 으스러지 24 흔들거리 24 내두르 24 발끈하 24 다가들 24 헐뜯 24 부러뜨리 24 곱하 24 찔러주 24 쇠 24 잡아들이 24 들이켜 24 게우 24 추스리 24 쏘아붙이 24 신들리 23 곯리 23 되받 23 잇대 23 관련짓 23 못견디 23 샘솟 23 거들먹거리 23 맞받 23 웅얼거리 23 뒤돌아서 23 나가떨어지 23 째 23 틀어쥐 23 고꾸라지 23 흘려보내 23 아뢰 23 들이받 23 퍼먹 23 털리 23 탐하 23 곱씹 23 갸우뚱하 23 거두어들이 23 보아주 23 냄새나 22 짚이 22 뒤뚱거리 22 요동치 22 떠내 22 떼밀 22 들썩이 22 길들 22 삭히 22 내려치 22 얽어매 22 놓여나 22 들쑤시 22 저리 22 짤리 22 삐 22 철들 22 가만두 21 비아냥거리 21 수군거리 21 덮어쓰 21 득실거리 21 내리누르 21"

/-- soynlp/lemmatizer/dictionary/default/Stem/Verb.txt:1901-2000 -/
def verbs19 : List (Str × Nat) := rows! "낄낄거리 21 바닥나 21 출렁거리 21 노닥거리 21 수그리 21 흩뿌리 21 야단맞 21 들먹거리 21 조아리 21 나동그라지 21 누그러뜨리 21 때려잡 21 후리 21 넘어뜨리 21 밀어주 21 덮어씌우 21 멈칫하 21 비켜나 21 낯모르 20 부둥키 20 뭉뚱그리 20 숨넘어가 20 퍼지르 20 까놓 20 꼴리 20 개이 20 불타오르 20 북적대 20 주워듣 20 걸머지 20 배어나 20 갈팡질팡하 20 덜컹거리 20 베이 20 가로막히 20 우려내 20 척하 20 못받 20 녹아들 20 편들 20 들썩거리 20 우러러보 20 멈칫거리 20 북적거리 20 움찔하 20 떠가 19 뺨치 19 내걸리 19 일렁거리 19 간지럽히 19 수그러들 19 까무러치 19 꼬드기 19 우물쭈물하 19 쳐부수 19 가까이하 19 되팔 19 좀먹 19 땡기 19 일그러뜨리 19 사르 19 긁어모으 19 끙끙거리 19 되살 19 시집보내 19 장가가 19 드높이 19 사그라지 19 갸웃하 19 비껴가 19 깜짝하 18 추키 18 휩싸 18 흩날리 18 지저귀 18 얕잡 18 답하 18 북받치 18 떵떵거리 18 칭얼대 18 긁적거리 18 왁자지껄하 18 굶기 18 거들뜨 18 잡숫 18 꾸물거리 18 같아지 18 애지중지하 18 안절부절못하 18 곯아떨어지 18 밀려가 18 강요받 18 어지르 18 으르렁대 18 치뜨 18 들러붙 18 체하 18 말씀드리 18 달가워하 17 불나 17"

/-- soynlp/lemmatizer/dictionary/default/Stem/Verb.txt:2001-2100 -/
def verbs20 : List (Str × Nat) := rows! "에두르 17 비틀어지 17 오그리 17 가물거리 17 잡아타 17 분지르 17 알아맞히 17 치켜뜨 17 눈물짓 17 꼬부리 17 하늘거리 17 못내 17 서성대 17 내뻗 17 후들거리 17 삐지 17 꺾어지 17 싸돌아다니 17 어떡허 17 엮이 17 넘겨다보 17 어정거리 17 엎지르 17 긁어내 17 오므라들 17 사그라들 17 지새 17 흐트리 17 끌어가 17 간질이 17 결리 17 혹하 17 빗기 17 삼가하 17 녹아내리 17 뒤따라가 17 뒤집어엎 17 뇌까리 17 내보 17 들볶 17 휘갈기 16 극하 16 말라비틀어지 16 늘어붙 16 악쓰 16 얻어듣 16 용솟음치 16 둘리 16 걷어치우 16 갸우뚱거리 16 저쩌 16 해어지 16 곧이듣 16 앞장세우 16 풀려나오 16 쭐이 16 깔아뭉개 16 돋히 16 수줍어하 16 우쭐하 16 눌르 16 째려보 16 홀짝거리 16 잡치 16 헝클 16 휘몰 16 부스러지 16 주억거리 16 떼이 16 그라 16 설레이 16 들이쉬 16 허둥거리 16 조지 16 치켜세우 16 간하 16 수그러지 16 뛰어나 16 터트리 16 뒈지 16 갈아주 16 잡아채 16 돼먹 15 꿰차 15 삐져나오 15 뜻하 15 쫄 15 놀라워하 15 잘생기 15 때맞추 15 술렁이 15 우쭐대 15 헉헉거리 15 도드라지 15 해먹 15 너울거리 15 못듣 15 싸안 15 절룩거리 15 집히 15"

/-- soynlp/lemmatizer/dictionary/default/Stem/Verb.txt:2101-2200 -/
def verbs21 : List (Str × Nat) := rows! "끝장나 15 치받치 15 빼닮 15 목메 15 허물어뜨리 15 잡아떼 15 털털거리 15 가로젓 15 껴들 15 문드러지 15 귀담아듣 15 낄낄대 15 되뇌이 15 떠먹 15 껌벅이 15 점찍 15 모아들이 15 안받 15 설하 15 몸서리치 15 쪽팔리 15 욕먹 15 일러바치 15 개키 15 내가 15 매듭짓 15 대이 14 한물가 14 엎디 14 사고팔 14 도리 14 기대앉 14 때려치 14 윙윙거리 14 엎질러지 14 켕기 14 안들 14 조각나 14 싱글거리 14 곧추세우 14 짓무르 14 칭얼거리 14 흐지부지되 14 씨근거리 14 구슬리 14 욱신거리 14 서러워하 14 건들거리 14 애태우 14 소곤거리 14 담구 14 다독이 14 얕보 14 반짝하 14 덧씌우 14 모두 14 젖혀지 14 끙끙대 14 펄럭거리 14 신기 14 깨부수 14 장가들 14 휘둘러보 14 끼여들 14 우비 14 나빠지 14 넘겨짚 14 그러잖 13 고사하 13 불티나 13 둘째가 13 날으 13 애끓 13 바람나 13 못다하 13 내리꽂히 13 낑낑거리 13 훌쩍이 13 응어리지 13 넘실대 13 움찔거리 13 머뭇머뭇하 13 미어지 13 얻어터지 13 꿰이 13 영글 13 오르락내리락하 13 번쩍하 13 몰라주 13 끈적끈적하 13 흉보 13 깜빡거리 13 들이붓 13 토닥거리 13 뒤쳐지 13 선보 13 술렁거리 13 배어들 13 팔아넘기 13 맞바꾸 13"

/-- soynlp/lemmatizer/dictionary/default/Stem/Verb.txt:2201-2300 -/
def verbs22 : List (Str × Nat) := rows! "삐죽거리 13 쓸어내리 13 꿀리 13 까발리 13 깔기 13 멸하 13 갈라서 13 물러앉 13 그르 13 떠다밀 13 싸지르 13 골리 12 반질반질하 12 피맺히 12 퍼덕거리 12 긁적이 12 꼼지락거리 12 철모르 12 받히 12 깨이 12 휘감기 12 절뚝거리 12 날름거리 12 덮히 12 탐나 12 찔끔거리 12 널부러지 12 덧나 12 기웃하 12 흘러넘치 12 맹글 12 기대서 12 깎아내리 12 덥히 12 벌어먹 12 깨트리 12 잘나가 12 실룩거리 12 흐트러뜨리 12 뻔하 12 묵어가 12 까불리 12 따라하 12 달음질치 12 흥청거리 12 졸아들 12 거꾸러지 12 히히덕거리 12 치대 12 치달리 12 보하 12 성내 12 돌아들 12 쥑이 12 추켜세우 12 발라내 12 등치 12 비어지 12 멕이 12 주저앉히 12 아이 12 눙치 12 그만하 12 제일가 11 쭈그러지 11 에 11 클나 11 덜커덩거리 11 널어놓 11 웃자라 11 참다못하 11 떠메 11 까무라치 11 옮아오 11 쪼그라지 11 게을리하 11 갉 11 더렵히 11 김빠지 11 대놓 11 쿵쾅거리 11 토닥이 11 얼크러지 11 흐느적거리 11 물결치 11 싸쥐 11 웅웅거리 11 찌그리 11 에우 11 발르 11 흩뜨리 11 허우적대 11 뚜드리 11 거머잡 11 부스럭거리 11 목매 11 굽신거리 11 찔끔하 11 뒤흔들리 11 뒤채 11"

/-- soynlp/lemmatizer/dictionary/default/Stem/Verb.txt:2301-2400 -/
def verbs23 : List (Str × Nat) := rows! "와글거리 11 치받 11 틔 11 뭉개지 11 흘르 11 잣 11 후려갈기 11 김매 11 달뜨 11 돌려세우 11 뒤척거리 11 길 11 쥐이 11 쌔 11 바래다주 11 낑낑대 11 키득거리 11 맞이하 11 맨들 11 헤매이 11 내쫓기 11 우쭐거리 11 집어삼키 11 부여안 10 마음놓 10 씩씩하 10 달음박질치 10 마 10 빼물 10 못잊 10 틈나 10 이르르 10 퉁겨지 10 두런거리 10 빈정대 10 빗맞 10 들이치 10 까뒤집 10 수지맞 10 떼밀리 10 퍼덕이 10 주지르 10 글썽하 10 얼씬하 10 앙다물 10 중얼대 10 정해지 10 가위눌리 10 꿈틀하 10 넘실거리 10 글썽거리 10 발붙이 10 폐하 10 못잡 10 들고일어나 10 헉헉대 10 못박 10 틀어잡 10 떠오 10 치고받 10 흥하 10 달랑거리 10 막아내 10 물러지 10 펴지 10 얼르 10 휘둥그래지 10 포개지 10 드날리 10 찡긋하 10 낙인찍히 10 가물가물하 10 날라가 10 아른거리 10 동하 10 삐뚤어지 10 갈구 10 안나 10 띠우 10 수군대 10 쭈뼛거리 10 깜빡이 10 엉클어지 10 흘려듣 10 말아먹 10 모자르 10 껌벅거리 10 우리 10 짓찧 10 욕심내 10 들락날락거리 10 집어내 10 불르 10 울구 10 옹크리 9 바라다보이 9 가로 9 감싸이 9 씌어지 9 몰아닥치 9"

/-- soynlp/lemmatizer/dictionary/default/Stem/Verb.txt:2401-2500 -/
def verbs24 : List (Str × Nat) := rows! "들어박히 9 디 9 비척거리 9 싸고돌 9 거울삼 9 살랑거리 9 히죽거리 9 벗어젖히 9 본따 9 죄어들 9 때려눕히 9 그리되 9 비칠거리 9 물먹 9 오그라붙 9 겁주 9 안나오 9 열받 9 흥청대 9 뻗대 9 조리 9 안쓰 9 재잘대 9 헤지 9 절름거리 9 흠칫하 9 마주보 9 받아쓰 9 얽매 9 홉뜨 9 기우뚱거리 9 질척거리 9 관두 9 찢어발기 9 비끄러매 9 덧대 9 울컥하 9 떼어먹 9 쳐내 9 끄덕하 9 빌어먹 9 잘라먹 9 쓸어안 9 가물 9 메아리치 9 안절부절하 9 내달 9 꺽이 9 안보 9 갈아엎 9 물어내 9 문제삼 9 앞서가 9 좇아가 9 질러가 9 벋 9 없이하 9 뇌 9 오무리 9 개기 9 동그래지 9 덧바르 9 짱박 9 으시대 9 킥킥거리 9 주워섬기 9 들어먹 9 오물거리 9 받아넘기 9 고만두 9 사위 9 덧보태 9 근질근질하 9 붙안 8 되어가 8 알키 8 뿌러지 8 목쉬 8 밭치 8 읍하 8 버둥대 8 달그락거리 8 찰랑이 8 목메이 8 닫아걸 8 벗어부치 8 내려뜨리 8 오그라지 8 그러모으 8 절룩이 8 찌들리 8 씰룩거리 8 옭아매 8 엉거주춤하 8 씹어뱉 8 킬킬거리 8 스멀거리 8 콜록거리 8 맘먹 8 달싹거리 8"

/-- soynlp/lemmatizer/dictionary/default/Stem/Verb.txt:2501-2600 -/
def verbs25 : List (Str × Nat) := rows! "너덜거리 8 새겨듣 8 주저주저하 8 재재거리 8 부숴지 8 빨려들 8 기어들어가 8 팔딱거리 8 세내 8 고쳐먹 8 지어먹 8 흘끔거리 8 구시렁거리 8 꼬느 8 쓸어버리 8 한눈팔 8 추근대 8 잇닿 8 잡아매 8 굴러들 8 기달리 8 집어늫 8 던져두 8 무르녹 8 축나 8 힐끔거리 8 주물럭거리 8 때묻 8 시시덕거리 8 번쩍번쩍하 8 철렁하 8 집적거리 8 발기 8 눌러놓 8 비비적거리 8 꼬물거리 8 티격태격하 8 우려먹 8 덜렁거리 8 끌려들 8 널뛰 8 대보 8 밀어젖히 8 움추리 8 문대 8 당허 8 들락날락하 8 흩트리 8 안주 8 으르 8 뒤집어씌우 8 맘놓 7 찰브락거리 7 둘러쌓 7 집어타 7 시중들 7 반들거리 7 무지르 7 논매 7 어찌어찌하 7 값나가 7 철썩이 7 씌이 7 못말리 7 홀짝이 7 돌이켜보 7 다그 7 몸서리나 7 귀먹 7 곰삭 7 붙박히 7 달아내 7 쪄내 7 내리쪼이 7 헝클어뜨리 7 쿵쿵거리 7 엇나가 7 바삭하 7 킬킬대 7 못먹 7 투닥거리 7 헛돌 7 버석거리 7 꾸부리 7 맞물 7 득시글거리 7 뜯어말리 7 안허 7 남아나 7 물오르 7 헤벌리 7 밀쳐놓 7 나풀거리 7 외틀 7 바글거리 7 원수지 7 뭉그러지 7 꼬집히 7 웅성대 7 붙어먹 7"

/-- soynlp/lemmatizer/dictionary/default/Stem/Verb.txt:2601-2700 -/
def verbs26 : List (Str × Nat) := rows! "덩어리지 7 덧붙 7 막가 7 둘러매 7 팔랑거리 7 결하 7 동트 7 눌러두 7 끌어오 7 작살나 7 내갈기 7 굽실거리 7 비실거리 7 어우르 7 몸져눕 7 눌어붙 7 모리 7 붙박 7 이끌어내 7 꾸물대 7 어그러지 7 바람맞 7 삐끗하 7 비죽거리 7 감하 7 덮씌우 7 데불 7 호리 7 늘어앉 7 툴툴거리 7 쳐지 7 옮겨가 7 훌치 7 옹송그리 7 나대 7 못찾 7 맥히 7 내돌리 7 생색내 7 달싹이 7 갈아입히 7 우짜 7 빨리하 7 떠벌이 7 끌어대 7 에워싸이 7 킁킁거리 7 생글거리 7 이울 7 몰아주 7 평하 7 처바르 7 잡수시 7 따끔거리 7 투기 7 파닥이 7 냅두 7 박이 7 노나 6 와닿 6 쌔비 6 굽이지 6 떼먹 6 성싶 6 번들대 6 열나 6 너울대 6 틀어박 6 농익 6 데이 6 내쏘 6 마음잡 6 재우치 6 내팽겨치 6 맞붙이 6 거하 6 아우러지 6 촐랑대 6 모심 6 내밀리 6 덧입 6 부르쥐 6 찝 6 되돌이키 6 내려쬐 6 까딱거리 6 끈적거리 6 걸리적거리 6 껌뻑이 6 접어놓 6 꺼트리 6 깡충거리 6 못자 6 만적거리 6 몰아오 6 지겨워하 6 건너다니 6 이래뵈 6 욱하 6 밭 6"

/-- soynlp/lemmatizer/dictionary/default/Stem/Verb.txt:2701-2800 -/
def verbs27 : List (Str × Nat) := rows! "북적이 6 벼리 6 알아맞추 6 꺼뜨리 6 기우뚱하 6 쿨럭거리 6 복닥거리 6 버팅기 6 벗하 6 에돌 6 쟁이 6 우글대 6 김새 6 꾀어내 6 가로질리 6 쥐어박히 6 시뻘개지 6 꿰맞추 6 뫼시 6 중얼중얼하 6 내깔기 6 달기 6 둘러쓰 6 치근덕거리 6 촐랑거리 6 땅기 6 움직거리 6 돌려대 6 울고불고하 6 까닥이 6 정떨어지 6 이기죽거리 6 실려가 6 힘내 6 짹짹거리 6 딩굴 6 슴벅거리 6 되쏘 6 누래지 6 바로잡히 6 알아먹 6 벌거벗기 6 눈치채 6 덜렁대 6 딱딱거리 6 징징거리 6 노여워하 6 안맞 6 달라 6 안듣 6 가빠지 6 내리찍 6 맞들 6 잡아넣 6 풀어쓰 6 떠받 6 수근거리 6 켜지 6 욕보이 6 고만하 6 떨어내 6 휘둥그레지 6 거꾸러뜨리 6 뒷걸음치 6 깜박하 6 얹혀살 6 되갚 6 파도치 6 줄달음치 6 없 6 샐쭉하 6 동댕이치 6 솟구 6 요러 6 못허 6 빨아내 6 싸다니 6 장가보내 6 앓아눕 6 얻어걸리 6 꿇리 6 사놓 6 맞장구치 6 명하 6 스 6 밉보이 6 잽히 6 애먹 6 말라빠지 5 후끈거리 5 다시말하 5 공들 5 흘려버리 5 다음가 5 힘닿 5 못쉬 5 비비꼬이 5 비루먹 5 삐걱이 5 아웅하 5"

/-- soynlp/lemmatizer/dictionary/default/Stem/Verb.txt:2801-2900 -/
def verbs28 : List (Str × Nat) := rows! "꼬불치 5 넉넉잡 5 물구나무서 5 들씌우 5 바라뵈 5 벅차오르 5 뉘이 5 번갈아가 5 질금거리 5 그슬리 5 반질거리 5 건들 5 아물거리 5 웅성이 5 부도내 5 휘늘어지 5 되바라지 5 꼬나물 5 눋 5 덜거덕거리 5 떠듬거리 5 낼름거리 5 들춰내 5 날름대 5 눅 5 부글거리 5 한들거리 5 헤헤거리 5 수군수군하 5 깝살리 5 철썩거리 5 알어듣 5 추켜올리 5 공치 5 비틀대 5 살랑이 5 뿌시 5 굴러먹 5 얽히고설키 5 징하 5 끄내 5 걷어채이 5 캑캑거리 5 득실대 5 안내 5 느글느글하 5 어기적거리 5 감아쥐 5 조바심치 5 돌어오 5 동동거리 5 들여가 5 달아매 5 절뚝이 5 떨어트리 5 미어터지 5 부시럭거리 5 우그러지 5 가닿 5 내노라하 5 요상하 5 안시키 5 한숨짓 5 심기 5 줄어지 5 삐약거리 5 복작대 5 꾸부러지 5 궁시렁거리 5 빠트리 5 끌어모으 5 좇되 5 볶이 5 끼적거리 5 까부르 5 꿰메 5 이죽거리 5 못믿 5 소변보 5 시큰거리 5 뭉그적거리 5 땡땡이치 5 낙인찍 5 때려죽이 5 으쓱거리 5 뜀뛰 5 덜리 5 수틀리 5 물컹거리 5 칠하 5 구워삶 5 기어나오 5 쭈그러들 5 과하 5 터져나오 5 엎치락뒤치락하 5 노래지 5 벙긋거리 5 파닥거리 5 두들겨패 5"

/-- soynlp/lemmatizer/dictionary/default/Stem/Verb.txt:2901-3000 -/
def verbs29 : List (Str × Nat) := rows! "내리퍼붓 5 들어보 5 사그러들 5 허하 5 헤벌어지 5 조잘거리 5 전디 5 까불거리 5 알랑거리 5 흐지부지하 5 뛰우 5 끄적이 5 안그러 5 나리 5 여쭙 5 끝장내 5 뻗히 5 식식거리 5 곁들 5 부딛히 5 내리꽂 5 비끌 5 메슥거리 5 발개지 5 아까워하 5 나부대 5 쫑알거리 5 찌우 5 걸르 5 벌렁거리 5 옥죄이 5 스쳐보 5 지질리 5 쇠하 5 펴놓 5 뭇허 5 떨어치 5 허위적거리 5 씩씩대 5 헛살 5 서걱거리 5 들썽거리 5 주절거리 5 거드럭거리 5 싸돌 5 싱글벙글하 5 끄적거리 5 깜빡하 5 좇아오 5 블 5 뒤치 5 어물어물하 5 털어먹 5 뒤끓 5 고함지르 5 떠먹이 5 박살나 5 말똥거리 5 놀고먹 4 용빼 4 가라사대 4 찰랑거리 4 수런거리 4 빌미잡 4 맞붙히 4 대충하 4 버글버글하 4 꽉차 4 통통거리 4 푸드득거리 4 떼다밀 4 의심나 4 헤짚 4 채치 4 컹컹거리 4 쳐다보이 4 꾸벅하 4 번득거리 4 울렁이 4 넙적하 4 못추 4 끔뻑끔뻑하 4 앵기 4 메기 4 둥글리 4 겯 4 쓸까스르 4 쾅쾅거리 4 안들이 4 붙어살 4 얼키 4 외떨어지 4 느물거리 4 번질번질하 4 되돌아서 4 구스르 4 내리비치 4 뚜룩치 4 퍼대 4 철나 4"

/-- soynlp/lemmatizer/dictionary/default/Stem/Verb.txt:3001-3100 -/
def verbs30 : List (Str × Nat) := rows! "바삭거리 4 들고나 4 뭐하 4 갈고닦 4 몰아대 4 덜덜거리 4 갈키 4 뒤좇 4 훌쩍하 4 움크리 4 끽하 4 내리긋 4 삐죽하 4 바람피우 4 감겨들 4 누루 4 바둥대 4 소박맞 4 소곤소곤하 4 낯설 4 딸랑거리 4 짚히 4 개웃하 4 악다물 4 쫑긋거리 4 흐물거리 4 먹어치우 4 받아치 4 사각거리 4 어릿어릿하 4 언짢아하 4 저벅거리 4 빼입 4 뭉뚱그러지 4 후루룩거리 4 쭐 4 사그러지 4 차려놓 4 너풀거리 4 소근대 4 껄 4 못차리 4 내리뜨 4 걸머메 4 내둘리 4 벗어붙이 4 맞비비 4 빠개 4 퍼넣 4 대롱거리 4 휘몰리 4 간지르 4 뒤 4 들여마시 4 쥐어지르 4 파래지 4 싱글대 4 솔깃하 4 빚내 4 따내 4 벌름거리 4 둥그래지 4 내리붓 4 말라죽 4 끄먹거리 4 밀어부치 4 휘청이 4 뒤엉기 4 귀기울이 4 비비꼬 4 바스라지 4 놨두 4 나불거리 4 꾸기 4 꿍치 4 눅이 4 실룩이 4 하동거리 4 끌려나가 4 망보 4 아웅다웅하 4 벗기우 4 휘적거리 4 끄떡하 4 멀뚱거리 4 격하 4 몰아부치 4 갈아대 4 고동치 4 괴어들 4 녹아나 4 오므라지 4 떼쓰 4 어루더듬 4 왔다갔다하 4 소근거리 4 걷어부치 4 들어붙 4 짓조르 4 두근대 4"

/-- soynlp/lemmatizer/dictionary/default/Stem/Verb.txt:3101-3200 -/
def verbs31 : List (Str × Nat) := rows! "뛰어들어가 4 내어놓 4 알짱거리 4 퍼먹이 4 미적대 4 안보이 4 기죽이 4 맞세우 4 짓뭉개 4 나둥그러지 4 새빨개지 4 빨가벗 4 땀나 4 속닥이 4 껌뻑거리 4 가로눕 4 부디치 4 유하 4 납시 4 둘러앉히 4 닥뜨리 4 시르죽 4 놀러가 4 우물쭈물거리 4 끌어넣 4 들볶이 4 쑥덕거리 4 퍼담 4 삐치 4 죽어나 4 놔주 4 씨부리 4 꺼꾸러지 4 희희덕거리 4 욕보 4 기꺼워하 4 내먹 4 직이 4 쌔리 4 부스러뜨리 4 빠져들 4 디리 4 쬧기 4 짓씹 4 뻐끔거리 4 두근두근하 4 요절내 4 하얘지 4 여울지 4 읃 4 비오 4 튿 4 웃어넘기 4 불어닥치 4 빌빌거리 4 바꿔치 4 날라오 4 맞받아치 4 띵기 4 지분거리 4 부서뜨리 4 올려붙이 4 작살내 4 백히 4 내쏟 4 미적거리 4 반짝반짝하 4 결딴나 4 잦 4 부 4 모 4 애끼 4 못주 4 쩔 4 욍기 4 근질거리 4 고물거리 4 지끈거리 4 놀러오 4 제쳐지 4 어물거리 4 덧들이 4 쳐내려오 4 종알거리 4 바둥거리 4 끝내주 4 간질간질하 4 꾸물꾸물하 4 겉늙 4 쨍쨍하 4 오싹오싹하 4 주물리 4 어영부영하 4 태 4 비틀비틀하 4 뵈이 4 눅어지 4 나꿔채 4 따운받 4 그어주 4"

/-- soynlp/lemmatizer/dictionary/default/Stem/Verb.txt:3201-3300 -/
def verbs32 : List (Str × Nat) := rows! "열어젖뜨리 4 얼쩡거리 4 건느 4 휘더듬 3 톡탁거리 3 씰룩이 3 울러메 3 꼬깃꼬깃하 3 흐늘거리 3 승하 3 우그리 3 흉내내 3 법하 3 새겨지 3 조여들 3 가득차 3 꿈벅거리 3 사각사각하 3 떼메 3 간드랑거리 3 장맛 3 나두 3 눌러붙 3 가로맡 3 재깍거리 3 돌쳐서 3 울먹거리 3 헝크러뜨리 3 태질치 3 볼라치 3 서리감 3 치찢 3 비비치 3 미끈거리 3 뿌서트리 3 홀로되 3 내밀치 3 꼬나쥐 3 쥐죽 3 출렁하 3 찡찡거리 3 걸신들리 3 부릉거리 3 뻣기 3 똑딱이 3 치렁치렁하 3 웅숭그리 3 번질거리 3 너부러지 3 홰치 3 의식 3 건너다보이 3 떨쳐입 3 멱따 3 골라잡 3 알아두 3 추근거리 3 쩔룩거리 3 여닫히 3 내리닫 3 깨나 3 쭈뼛쭈뼛하 3 지글거리 3 끓어넘치 3 서걱이 3 엇바꾸 3 부르릉거리 3 해매 3 똑딱거리 3 훔쳐먹 3 뚤리 3 너덜너덜하 3 바스락거리 3 뺑소니치 3 갈르 3 고장나 3 탕치 3 추적거리 3 탈탈거리 3 첫곧이듣 3 빙긋하 3 말달리 3 뚜둘기 3 들이차 3 스며들어오 3 굽신하 3 끼리 3 헤메 3 애끊 3 꼬꾸라지 3 채기 3 희끗거리 3 두들겨맞 3 휘청대 3 아장거리 3 뿔나 3 까무느 3 덜그럭거리 3 뿌리박히 3 오물오물하 3"

/-- soynlp/lemmatizer/dictionary/default/Stem/Verb.txt:3301-3400 -/
def verbs33 : List (Str × Nat) := rows! "어릿거리 3 이우 3 들척거리 3 들깨우 3 얻어묵 3 나아오 3 내리깔리 3 받아들 3 담쌓 3 쳐죽이 3 으르릉거리 3 엇먹 3 떠다밀리 3 가르릉거리 3 버스럭거리 3 쫑알대 3 꾀벗 3 뒤굴 3 퍼드러지 3 내질리 3 왈왈거리 3 첨벙거리 3 맞당하 3 껄껄대 3 안가지 3 떼어놓 3 죄이 3 허덕거리 3 욕심나 3 숙덕거리 3 쿨쩍거리 3 우글우글하 3 내려찍 3 사려물 3 되가지 3 직하 3 나란히하 3 몰키 3 사과드리 3 안팔리 3 꼬나박 3 부스럭대 3 키들거리 3 부닥뜨리 3 기웃기웃하 3 내리훑 3 비꼬이 3 초상나 3 뒤미치 3 성가시 3 넘석하 3 본체만체하 3 골나 3 찰칵하 3 들이박히 3 찌꺽하 3 불붙이 3 비껴들 3 참고삼 3 말르 3 대물리 3 똑떨어지 3 뒤짚 3 벌서 3 도란거리 3 들여앉히 3 미끌거리 3 주물거리 3 을러대 3 병나 3 와글와글거리 3 윙윙대 3 욱신욱신하 3 흑흑거리 3 들이비치 3 해하 3 을러메 3 떼짓 3 찔꺽거리 3 끔벅거리 3 꽥꽥거리 3 두리번대 3 머뭇대 3 조 3 풍겨나오 3 눌 3 사기치 3 굴러오 3 터치 3 뻑나 3 흘깃거리 3 올라붙 3 까라지 3 둘러막 3 흐뜨리 3 흔전거리 3 아옹다옹하 3 콩닥거리 3 굽신대 3 비죽대 3"

/-- soynlp/lemmatizer/dictionary/default/Stem/Verb.txt:3401-3500 -/
def verbs34 : List (Str × Nat) := rows! "귀울이 3 쪼그라들 3 까부라지 3 다가붙 3 정들이 3 뻥치 3 둘르 3 어슬렁대 3 찌부러지 3 뻐드러지 3 딸그락거리 3 날르 3 지내보 3 안댕기 3 비다듬 3 안쓰러워하 3 끄달리 3 히 3 실쭉하 3 뇌이 3 반들반들하 3 비비대 3 뚝딱거리 3 글썽글썽하 3 버르집 3 빵빵거리 3 씨부렁거리 3 모나 3 떠듬떠듬하 3 버물리 3 책잡히 3 상허 3 쏠 3 뻐개 3 돌려쓰 3 배곯 3 종결짓 3 추켜들 3 베리 3 채리 3 얕보이 3 집적대 3 조물락거리 3 날치 3 지칫거리 3 모잘르 3 부닐 3 도스리 3 어짜 3 둘러붙이 3 잡아댕기 3 못이루 3 진하 3 쏟아붓 3 구허 3 스물거리 3 되받아치 3 바스러지 3 부려먹 3 어슬어슬하 3 어이하 3 메어치 3 씨부렁대 3 세놓 3 우물대 3 까뭉개 3 깜 3 깔보이 3 잡아들 3 치근거리 3 잦히 3 되사 3 못채우 3 손해나 3 내리감 3 닫치 3 맞부딪히 3 매우 3 후들대 3 끄떡이 3 기우 3 흡뜨 3 부하 3 메치 3 메다꽂 3 꾀어들 3 못생기 3 사하 3 따리 3 놀래키 3 수근대 3 처들이 3 뽀개 3 못들 3 안갖 3 바수 3 쑤군대 3 잡아다리 3 아득바득하 3 뎀비 3"

/-- soynlp/lemmatizer/dictionary/default/Stem/Verb.txt:3501-3600 -/
def verbs35 : List (Str × Nat) := rows! "저작거리 3 삐죽이 3 웅얼대 3 오래하 3 잠구 3 소곤대 3 앵돌아지 3 빌빌대 3 붉으락푸르락하 3 되밟 3 풀어먹이 3 버벅거리 3 돌치 3 뜯어읽 3 훑어가 3 들오 3 못가지 3 쉭이 3 깝죽대 3 빙글거리 3 팽기 3 찾아뵈 3 우물우물하 3 휘돌리 3 버르적거리 3 빽빽거리 3 접붙이 3 자빠뜨리 3 왔다갔다거리 3 섬찝하 3 저질르 3 우그러뜨리 3 죽여주 3 꾸뻑하 3 혼쭐나 3 찡기 3 동나 3 껑충거리 3 어떻 3 간질거리 3 빼들 3 목매달 3 휘돌아보 3 쨍하 3 거리끼 3 안오 3 드시 3 짓치 3 수선거리 3 드물 3 탄하 3 어루 3 걸어다니 3 빙글대 3 철벅거리 3 풀르 3 건디 2 오비 2 쿵쿵하 2 맞춤하 2 델 2 번질대 2 입맞추 2 목숨걸 2 타들어가 2 종종대 2 상우 2 챙겨들 2 우글우글거리 2 휘돌아들 2 찐득찐득하 2 찔끔대 2 졸랑거리 2 갈마들 2 텅비 2 되집 2 깎아지르 2 어름어름하 2 깽깽거리 2 젖뜨리 2 설삶 2 부풀어오르 2 곤치 2 조용조용하 2 질척이 2 아롱거리 2 갓나 2 벗삼 2 박신거리 2 휘끼 2 머무적거리 2 으젓하 2 사뢰 2 붙여지 2 그러쥐 2 망허 2 응달지 2 잇대이 2 흐느적흐느적하 2 쿵쾅대 2"

/-- soynlp/lemmatizer/dictionary/default/Stem/Verb.txt:3601-3700 -/
def verbs36 : List (Str × Nat) := rows! "안남 2 즈리 2 남실거리 2 엎드러지 2 비죽이 2 타내리 2 통허 2 푸드덕거리 2 정신없 2 끼루룩거리 2 뒤말리 2 짓모 2 썩어빠지 2 턱하 2 불끈거리 2 덜렁하 2 깨갱거리 2 용쓰 2 벌떡거리 2 처닫 2 안열 2 뭉게 2 낫우 2 갈서 2 뻑하 2 종되 2 피어리 2 퍼더버리 2 귀빠지 2 호감 2 철버덕거리 2 깐족이 2 푸드득하 2 늦자라 2 꿀럭거리 2 성하 2 치훑 2 품기 2 건너지르 2 이름높 2 크르릉거리 2 몰려나 2 돌이켜 2 파나 2 열치 2 마무르 2 철벅이 2 웬수지 2 낯익 2 쑤군거리 2 긷들 2 능글거리 2 딸각거리 2 섬벅거리 2 쪼글띠리 2 짱박히 2 쫑그리 2 쥐잡 2 바쁘 2 가새지르 2 뻐금거리 2 오무라들 2 손놓 2 겉잡 2 꼬부라들 2 해뜨 2 엉그름지 2 가물가물거리 2 아리키 2 입고하 2 줄달 2 타지 2 짓뇍이 2 일그리 2 시끌벅적하 2 흘낏거리 2 히죽대 2 쿵쿵대 2 징허 2 질겅거리 2 곱삶 2 탁하 2 발랑거리 2 읃어먹 2 내질르 2 헤쳐모이 2 엇비끼 2 뚜닥뚜닥거리 2 한 2 소문내 2 어른대 2 샘내 2 조잘대 2 곧서 2 피보 2 꿈쩍하 2 골골하 2 안지르 2 솟보 2 업드리 2"

/-- soynlp/lemmatizer/dictionary/default/Stem/Verb.txt:3701-3800 -/
def verbs37 : List (Str × Nat) := rows! "수갑차 2 늦되 2 저믜 2 바라지 2 미끌어지 2 못배기 2 그려지 2 되반들거리 2 첫째가 2 쳐들리 2 어긋지 2 도닥거리 2 생하 2 너풀대 2 벙글대 2 풀어뜨리 2 까악거리 2 하늘하늘하 2 엇섞 2 아기작거리 2 으등그러지 2 쌕쌕거리 2 흥청망청하 2 겨가 2 등쳐먹 2 벌렁이 2 뻬끼 2 들여다뵈 2 실하 2 또그닥거리 2 덤벙대 2 재치 2 씨근대 2 이러쿵저러쿵하 2 되치 2 덜컥하 2 까뒤집히 2 떠내려오 2 안까 2 도적맞 2 훔켜잡 2 넘쳐나 2 골르 2 까불까불하 2 할끔거리 2 못가리 2 득하 2 낚이 2 가랑가랑하 2 번뜩거리 2 사루 2 베어내 2 불안해하 2 자아올리 2 꾸물럭거리 2 뭉기적거리 2 내리박히 2 뻥긋하 2 셈하 2 깍이 2 뿔 2 쑤석거리 2 넌출지 2 모양내 2 고루 2 휘뿌리 2 못벌 2 중얼이 2 엎지러지 2 쥐락펴락하 2 필하 2 늘어세우 2 갖다두 2 뚜들기 2 애달캐달하 2 생색나 2 쿵덕쿵덕거리 2 굽실하 2 헷깔리 2 버름적거리 2 못시키 2 해죽거리 2 덜그렁하 2 택택거리 2 뒤치락거리 2 미끄러뜨리 2 되삼키 2 골탕먹 2 휘청하 2 자글자글하 2 퉁탕거리 2 줄행랑치 2 넘가 2 재깔거리 2 좆 2 쪼르 2 기어다니 2 떠 2 뻗쳐오르 2 버히 2"

/-- soynlp/lemmatizer/dictionary/default/Stem/Verb.txt:3801-3900 -/
def verbs38 : List (Str × Nat) := rows! "쿨렁거리 2 들어엎디 2 낭창거리 2 득실득실하 2 핥아먹 2 꼬매 2 소리지르 2 쳐올리 2 떼우 2 내차 2 끄덕끄덕하 2 누그러들 2 돌려나 2 숙 2 찢기우 2 달려나오 2 못갚 2 널찌 2 맞겨루 2 건너보 2 꿀꿀거리 2 배앝 2 감치 2 떠떠떠거리 2 바글바글하 2 치근치근하 2 사각대 2 빼주 2 맞겨누 2 타내 2 낑낑하 2 뎀벼들 2 영글리 2 되읽 2 왕왕거리 2 안재우 2 즉하 2 살살거리 2 끈적이 2 바로하 2 화끈화끈하 2 애먹이 2 자지러들 2 정붙이 2 어물쩍거리 2 낭창낭창하 2 진력나 2 윗돌 2 되접 2 뱌빚거리 2 치떠보 2 들척이 2 나려가 2 와삭거리 2 노니 2 뜨끔거리 2 엇물리 2 찔벅거리 2 끼끼거리 2 꼬꼬하 2 두리번두리번하 2 까묵 2 찔금거리 2 가려보 2 칩뜨 2 맞싸우 2 달려나가 2 물씬거리 2 뒷받치 2 딸랑이 2 출렁대 2 두런두런하 2 마무리짓 2 헛물켜 2 튀어나가 2 옭 2 해롱해롱대 2 늦구 2 찍찍거리 2 어그러뜨리 2 뒤덮히 2 납신거리 2 곤두박 2 꼼지락대 2 까보 2 격 2 더듬더듬하 2 덮어두 2 결판나 2 빈들거리 2 즉 2 고시랑거리 2 흥얼대 2 그럭하 2 갖다주 2 터덜거리 2 내버려두 2 건들이 2 아롱지 2 앙버티 2"

/-- soynlp/lemmatizer/dictionary/default/Stem/Verb.txt:3901-4000 -/
def verbs39 : List (Str × Nat) := rows! "까닥하 2 맞치 2 찌지직거리 2 친하 2 대접받 2 까딱이 2 휘달리 2 앵앵거리 2 가말 2 집어치 2 되비치 2 가로채이 2 해롱대 2 비쭉비쭉거리 2 쑤셔넣 2 훌닦이 2 둥그레지 2 뎁히 2 껄떡대 2 제쳐두 2 들앉 2 내붙이 2 밀물지 2 볼록하 2 징징대 2 삐거덕거리 2 바각거리 2 되감 2 곱 2 오들거리 2 도스르 2 감지덕지하 2 지달리 2 들통나 2 기어오 2 안생기 2 괴어오르 2 핀잔주 2 못치 2 된 2 주물럭대 2 곱새기 2 덥치 2 헉하 2 푸푸거리 2 허둥지둥하 2 뒤적뒤적거리 2 들쓰 2 안자 2 뿅뿅거리 2 절그럭거리 2 못타 2 기웃대 2 비추이 2 패대기치 2 꿀꺽하 2 생글생글하 2 버드러지 2 긁어놓 2 벌주 2 재끼 2 공갈치 2 훌뿌리 2 멀뚱멀뚱하 2 너울너울하 2 물러오 2 어른어른하 2 선하 2 꼬나들 2 벌렁벌렁하 2 되비추 2 못대 2 자주하 2 노누 2 쪽지 2 콩당거리 2 싸대 2 어름거리 2 까악까악거리 2 꼼치 2 속삭거리 2 걸어앉 2 거치적거리 2 못낳 2 내박치 2 쩔름거리 2 질르 2 앙물 2 나꾸 2 후드득거리 2 에이 2 왈가닥거리 2 안계시 2 갈아끼우 2 가깝 2 들이박 2 헐레벌떡거리 2 내드리 2 못나오 2 닦아세우 2"

/-- soynlp/lemmatizer/dictionary/default/Stem/Verb.txt:4001-4100 -/
def verbs40 : List (Str × Nat) := rows! "빤짝이 2 결말짓 2 도닥이 2 일러두 2 걸터듬 2 삐그덕거리 2 가리치 2 벌룽거리 2 불뚝하 2 축가 2 뿐지르 2 지싯거리 2 지리 2 너덜대 2 내뻗치 2 되감기 2 노박이 2 맞부딪 2 지릅뜨 2 숨쉬 2 윤나 2 빼치 2 농탕치 2 되튀어나가 2 주접떨 2 꿇어앉히 2 뉘우 2 민기적거리 2 후끈하 2 잡아다니 2 쭈밋거리 2 방울지 2 낭패보 2 밀어뜨리 2 항상되 2 질벅거리 2 갈라내 2 모내 2 내려쏟 2 휘덮 2 찔르 2 되튀어나오 2 굴러떨어지 2 핑하 2 더치 2 때가 2 죄받 2 버그러지 2 짜부라지 2 흘낏흘낏하 2 세주 2 워찌하 2 그릇하 2 옥물 2 깔딱거리 2 건너서 2 잉잉거리 2 금허 2 뭉그러뜨리 2 엄청나 2 펄렁거리 2 자드락거리 2 법석거리 2 안지 2 엉구 2 그렇 2 찌그러뜨리 2 굽실대 2 어지러뜨리 2 흥흥거리 2 빨아올리 2 어불리 2 어둡 2 꼬불꼬불하 2 고부라지 2 안나가 2 맞보 2 감아올리 2 못내놓 2 덜컹하 2 끌어다니 2 안들리 2 후둘거리 2 통털 2 벙긋하 2 속상하 2 불끈하 2 홧홧거리 2 철떡거리 2 내리지르 2 둘러놓 2 안풀리 2 겨워하 2 낚아올리 2 끄떡끄떡하 2 퍼득이 2 높히 2 잡아오 2 건들건들하 2 다둑거리 2"

/-- soynlp/lemmatizer/dictionary/default/Stem/Verb.txt:4101-4200 -/
def verbs41 : List (Str × Nat) := rows! "나풀대 2 철렁거리 2 널름거리 2 느즈러지 2 틀려먹 2 벌컥거리 2 쳐넣 2 비양거리 2 아둥바둥하 2 긁어내리 2 으르딱딱거리 2 부러치 2 절그럭하 2 뜸들이 2 똥그래지 2 안타 2 할딱거리 2 좋 2 각지 2 답치 2 간당거리 2 끔벅이 2 바동거리 2 빼았기 2 꿉 2 기시 2 부르걷 2 낯익히 2 멋지 2 새까매지 2 내흔들 2 나불대 2 푸들거리 2 걸치적대 2 안가리 2 빌려주 2 삐걱삐걱하 2 띄이 2 헤어나오 2 디비지 2 맞부비 2 들까불 2 쑤군쑤군하 2 알콩달콩하 2 불어제치 2 도르 2 도망다니 2 좋아허 2 우겨넣 2 조빼 2 안가르치 2 멈칫멈칫하 2 맞바라보 2 끼적이 2 꼼짝못하 2 추어올리 2 중얼중얼거리 2 뉘엿뉘엿하 2 달아보 2 킥킥대 2 비그덕거리 2 흔들흔들하 2 뒤밟 2 꿈벅이 2 차올리 2 못벗어나 2 안서 2 불룩하 2 뛰어들어오 2 나들 2 경치 2 결판내 2 스멀대 2 덧입히 2 안끼 2 깜짝이 2 아울리 1 잉끄 1 사뿐사뿐하 1 꼬시르 1 뺐기 1 타시락거리 1 오동포동허 1 죅이 1 뜰먹거리 1 나려오 1 허덕대 1 주목받 1 엇설키 1 휩쌔 1 천세나 1 녹쓸 1 되먹 1 만지적거리 1 까르륵거리 1 찌걱거리 1 구불거리 1 쩔거덕거리 1 내려쓸 1 타개 1"

/-- soynlp/lemmatizer/dictionary/default/Stem/Verb.txt:4201-4300 -/
def verbs42 : List (Str × Nat) := rows! "깜짝깜짝하 1 둥글 1 거우 1 못맞추 1 사부작거리 1 동 1 또깍거리 1 뒤어쓰 1 대질리 1 매맞 1 바스러뜨리 1 맞찔리 1 펑펑거리 1 꼬시라지 1 웽웽거리 1 가로눕히 1 시부렁거리 1 벌렁대 1 저러쿵하 1 뛰가 1 주워삼기 1 떠지르 1 토닥토닥하 1 칙칙폭폭거리 1 그렁이 1 비까번쩍하 1 꺼주 1 침놓 1 옹종거리 1 끌리가 1 무거웁 1 철하 1 덥퍽거리 1 쭈그러뜨리 1 부르릉부르릉하 1 접어넣 1 붇돋 1 불러올리 1 치오르 1 히히거러 1 반뜩하 1 들어스 1 쓸어치 1 말썽피우 1 획하 1 불이 1 패놓 1 해뜨리 1 비비적대 1 놓아가 1 움쩍하 1 넹기 1 북적북적하 1 뽑아들 1 대주 1 왈랑왈랑거리 1 부딛치 1 알겯 1 뻥뻥치 1 찡허 1 쿵쾅하 1 걸어올라가 1 끝가 1 되타 1 쨀끔하 1 꼬굴꼬굴하 1 잡아두 1 마중하 1 숙어지 1 음음거리 1 부럽어하 1 못외우 1 뼈저리 1 비죽하 1 까닥거리 1 둘러붙 1 말개지 1 삶기 1 쫄이 1 주물리우 1 문대기 1 레슝까 1 빼끼 1 꿈트 1 무느 1 쏙 1 행허 1 대리 1 쫒기 1 물리우 1 열어제치 1 읎 1 우응하 1 모두삭제하 1 뒤쫓아가 1 가까이되 1 헛짚 1 장보 1 달싹대 1 황잡 1"

/-- soynlp/lemmatizer/dictionary/default/Stem/Verb.txt:4301-4400 -/
def verbs43 : List (Str × Nat) := rows! "본 1 타일르 1 섥히 1 베어먹 1 뒤틀어지 1 서성서성하 1 갈라앉 1 어긋치 1 철버덕하 1 들여쉬 1 기대되 1 졸졸거리 1 안걸리 1 달달거리 1 후들후들하 1 얼비치 1 맹그 1 아글타글하 1 덧달 1 악물리 1 이었음직하 1 느시렁거리 1 따라 1 올라 1 받잡 1 제공받 1 잡사르 1 내리쓰 1 찰랑찰랑하 1 헝크러지 1 안놓 1 처매 1 섬찍섬찍하 1 보글거리 1 벙싯거리 1 쩔그럭거리 1 디나 1 주름답 1 치근적거리 1 곱씹히 1 쓰우 1 되꼽치 1 어떵 1 덤벙거리 1 타드락거리 1 혼내키 1 못넣 1 브 1 삐꺽삐꺽하 1 나가보 1 길르 1 걷어쥐 1 확트이 1 끼르륵하 1 오글거리 1 둘메치 1 집어먹히 1 댕그러지 1 목적 1 속닥대 1 나돌아다니 1 와글대 1 시뻐개지 1 흥치 1 뒹굴리 1 응얼거리 1 연관짓 1 덥죽대 1 쌈싸우 1 규격지 1 얼룩지우 1 갈갈하 1 짜부라들 1 꾀부리 1 종치 1 벌름하 1 보일 1 씹하 1 믿기우 1 굼틀거리 1 오물대 1 헛듣 1 개지 1 들끊 1 백백하 1 되끌 1 쫑긋쫑긋하 1 느리적거리 1 비지어나오 1 캐캐묵 1 웃침받 1 몸바치 1 갈앉 1 에돌아가 1 삐뜩그 1 덮씌 1 건내 1 북북하 1 구륵구륵하 1 알곁 1"

/-- soynlp/lemmatizer/dictionary/default/Stem/Verb.txt:4401-4500 -/
def verbs44 : List (Str × Nat) := rows! "갈라붙이 1 찝어내 1 짊 1 장가들이 1 해살거리 1 쑥덕쑥덕하 1 방방거리 1 헛찧 1 끌르 1 꼰지르 1 져지르 1 배리 1 와 1 겹쌓이 1 쇼부치 1 후두둑거리 1 헐떡헐떡하 1 만지작이 1 두루 1 갖히 1 일쿠 1 흐러들 1 깜박깜박하 1 느즈러뜨리 1 차랑차랑하 1 방긋하 1 뜯어맞추 1 허무러지 1 짜리 1 삐쭉거리 1 엿뵈이 1 자미나 1 내리가 1 뽑히우 1 돌아댕기 1 낮잡 1 나달나달하 1 곤두박히 1 일어나나 1 볼메 1 참으 1 바등거리 1 판정나 1 주름지 1 쌕쌕대 1 끄적대 1 결딴내 1 터울거리 1 곰살거리 1 우물쩡대 1 퍼트리 1 티우 1 푸석거리 1 지니이 1 내려깔 1 들가불 1 갈치 1 아니것이아니 1 빤짝하 1 모셔오 1 냄기 1 뒤치락하 1 고물고물하 1 흘벗 1 끄슬리 1 훔쳐잡 1 초롱거리 1 얻어내 1 되걸 1 돌라막 1 깨지락대 1 모잘라 1 좆먹이 1 추수리 1 되바르 1 대니 1 쪼달리 1 달여나가 1 얼른하 1 밀치락달치락하 1 차일피일하 1 잡아젖히 1 산들거리 1 드러가 1 찌뿌리 1 노놔먹 1 내어보내 1 덜커덕하 1 법석이 1 궁그리 1 둥그러지 1 부닥거리 1 씰룩하 1 맞붙들 1 같은하 1 두들키 1 엎치락뒤치락거리 1 질력나 1 쑤근거리 1 사로자 1"

/-- soynlp/lemmatizer/dictionary/default/Stem/Verb.txt:4501-4600 -/
def verbs45 : List (Str × Nat) := rows! "흐트 1 뭉클거리 1 아물리 1 꺼집어내 1 뒤훑 1 바자니 1 채안되 1 짱짱하 1 회갈기 1 맳 1 못바치 1 사죄드리 1 비슬비슬하 1 와드랑거리 1 내리쓸 1 후려잡 1 구불구불하 1 내어밀 1 거두우 1 가랑거리 1 구기박지르 1 비켜주 1 해롱해롱하 1 진저리나 1 지그리 1 털커덩하 1 꿈벅꿈벅거리 1 훔쳐내 1 우습 1 닦치 1 구구거리 1 갖다대 1 떨기 1 뻗어뜨리 1 듸우 1 상처받 1 솓아지 1 죽때리 1 스멀스멀거리 1 끝맡히 1 내꼰지 1 졸깃거리 1 끄집어내리 1 자드락대 1 추밀 1 섬뜩하 1 재기 1 종그리 1 가장하 1 용송거리 1 허덕허덕하 1 씨알거리 1 내뽑 1 안마시 1 복바치 1 자아나 1 뚜디 1 요청허 1 알랑알랑하 1 밝혀주 1 짓지 1 질끔거리 1 얼싸이 1 포드득하 1 늦배우 1 박수치 1 삐죽대 1 궁상떨 1 물크러지 1 자자 1 덧쓰 1 두둘겨맞 1 얼락녹을락하 1 못따 1 돌아 1 팔락거리 1 욱박지르 1 메달리 1 깜빡깜빡하 1 철거덕이 1 복작이 1 막보 1 화르르거리 1 시다리 1 적시우 1 흐려뜨리 1 원할하 1 호 1 비트 1 석이 1 불려나오 1 옴죽거리 1 벌거벗기우 1 다져넣 1 울고불 1 둥실거리 1 따루 1 가로뉘 1 배앗 1 서물거리 1"

/-- soynlp/lemmatizer/dictionary/default/Stem/Verb.txt:4601-4700 -/
def verbs46 : List (Str × Nat) := rows! "부글부글하 1 움직여대 1 따끔따끔하 1 불어치 1 내맺히 1 부끄럽 1 아물아물하 1 휑뎅그렇 1 안걸치 1 쫍치 1 다디 1 못입히 1 밋까 1 흥돋우 1 뒤적대 1 건디리 1 내려뚫리 1 생각히 1 움찔움찔하 1 건내주 1 딸각이 1 벌렁하 1 날라다니 1 줘패 1 탁탁거리 1 우르릉거리 1 끈죽끈죽하 1 깔쭉깔쭉하 1 하아보았음직하 1 우선하 1 짜치 1 떼밀려가 1 되생각키 1 내미 1 찧기 1 기달 1 긁어당기 1 오그라뜨리 1 들쑤성거리 1 이죽이 1 갈아붙이 1 끼적대 1 짤러 1 미더웁 1 내어눕 1 찻 1 골골거리 1 뽀사지 1 흐늘어지 1 낄리 1 털렁거리 1 캥기 1 철벙거리 1 사분사분하 1 술렁리 1 못나 1 맥이 1 놓여나오 1 껄껄하 1 쎄리까 1 달막이 1 떠엎 1 노 1 삐시 1 쓰라리 1 완성되 1 악창나 1 후끈후끈하 1 가려먹 1 처맞 1 제기 1 안당하 1 추춤거리 1 뚱그레지 1 만적만적하 1 불지르 1 버물 1 금나 1 찣 1 퍽하 1 웅숭크리 1 싱그레하 1 꼬실르 1 보깨 1 짙 1 꼼질거리 1 넘어다보 1 쏴하 1 못해내 1 홈치 1 둥개 1 지끈자끈하 1 버둥버둥하 1 히히닥거리 1 끼뜨리 1 외따르 1 입다물 1 질퍽거리 1 부글대 1 골아떨어지 1"

/-- soynlp/lemmatizer/dictionary/default/Stem/Verb.txt:4701-4800 -/
def verbs47 : List (Str × Nat) := rows! "쟁쟁거리 1 빨아널 1 꿈적거리 1 힝힝거리 1 쿠쿠거리 1 이럭하 1 꼬나잡 1 앙상븟 1 소중히하 1 안개리 1 쑤군덕거리 1 맡개 1 면히 1 쭈그려뜨리 1 절단나 1 빼앗기우 1 울구불구하 1 조심하 1 길러주 1 망설거리 1 못오르 1 새어들 1 해싸대 1 도줏 1 벗겨버리 1 떠받히 1 톺아보 1 목잡 1 우무럭거리 1 촐삭거리 1 쭈글쭈글하 1 벗어제끼 1 펼쳐두 1 쓸어맡기 1 터벅거리 1 고으 1 섯뒤집 1 아름작거리 1 욱죄 1 새나오 1 꺼불꺼불하 1 꼴딱하 1 알려주 1 터 1 흝 1 껌뻑껌뻑대 1 구비치 1 내려보내 1 받어들이 1 부등키 1 기럽 1 바루 1 오무 1 끌려나오 1 뜻맞 1 겅중거리 1 꺾지 1 받아쥐 1 끼리릭거리 1 되똑하 1 붕저하 1 쌩쌩거리 1 자끈하 1 부어넣 1 욱지르 1 비칠비칠하 1 뚫이 1 늫 1 불구하 1 처밀 1 빵빵대 1 휘젖 1 큰일나 1 이카 1 않쓰 1 걷어차이 1 어긋비비 1 맞버티 1 묻어두 1 휭하 1 거쳐가 1 쉬쉬거리 1 예배드리 1 갖고오 1 흔해빠지 1 즐거워지 1 울근불근하 1 올러서 1 발끈거리 1 가로새 1 짜여지 1 무자라 1 쏘아부치 1 후후거리 1 쏘시닥거리 1 뒤뚱대 1 꺅꺅거리 1 히물거리 1 독판치 1 마렵 1"

/-- soynlp/lemmatizer/dictionary/default/Stem/Verb.txt:4801-4900 -/
def verbs48 : List (Str × Nat) := rows! "못막 1 까라앉 1 곡하 1 끼얹히 1 오르내르 1 풍성대 1 되던지 1 해해거리 1 할퀴이 1 비취 1 뒤통수치 1 뿌지지하 1 건네이 1 부글부글거리 1 속타 1 찌지 1 곱치 1 끄적끄적하 1 맥빠지 1 질컥질컥하 1 회오리치 1 꿈뻑거리 1 함치 1 씨우 1 발발거리 1 맑히 1 캐어묻 1 못들어가 1 입히우 1 버걱거리 1 빤작빤작하 1 써 1 싱긋싱긋하 1 어떠 1 샆 1 가로젖 1 꿈지럭거리 1 휘덮이 1 찌르륵하 1 앙토라지 1 치껴뜨 1 까딱까딱하 1 마주잡 1 얼구 1 팔딱팔딱하 1 궂 1 쪼으 1 터적거리 1 깜작이 1 이르집 1 올러가 1 휘청휘청하 1 못나빠지 1 꽥꽥대 1 두디리 1 무릎쓰 1 안기우 1 전수하 1 뫄으 1 재수없 1 따놓 1 알어채리 1 능청능청하 1 퍼석거리 1 삐쭉대 1 딴딴거리 1 읖조리 1 햝 1 펴디 1 오글대 1 끄물거리 1 위히 1 꼽사리끼 1 안지키 1 몽뚱그리 1 늘쿠 1 조심혀 1 쏼라쏼라하 1 묵이 1 들고나오 1 붔 1 및 1 잡아흔들 1 칼로리 1 뻐팅기 1 서두리 1 삐뚤삐뚤하 1 정분나 1 가로걸리 1 일어앉 1 고만두라 1 꿈틀꿈틀허 1 돌고돌 1 어찔거리 1 피식거리 1 딱하 1 웨 1 그스리 1 죅치 1 색이 1"

/-- soynlp/lemmatizer/dictionary/default/Stem/Verb.txt:4901-5000 -/
def verbs49 : List (Str × Nat) := rows! "납작납작하 1 들고뛰 1 안잡 1 내이 1 찌기 1 안만들 1 끄덕끄덕끄덕하 1 쳐엎치 1 뽀글거리 1 움츠르 1 철두철미하 1 둔하 1 째이 1 처들 1 조오 1 보스락하 1 안나서 1 조까 1 뿌잡히 1 찾아들어오 1 죄주 1 찌그러들 1 주밋거리 1 훌쩍훌쩍하 1 씻부시 1 가랍 1 쳐먹 1 포복포복하 1 멈칫대 1 뒤여지 1 우줄거리 1 녀 1 안믿 1 아물어들 1 교정보 1 빠주 1 깔쭉거리 1 꼼실대 1 못메우 1 까닥까닥하 1 아물대 1 탈탈대 1 닳창나 1 미끈덕거리 1 끼어안 1 강조하 1 새로이하 1 일세우 1 갖다놓 1 도스러지 1 다둑이 1 빠찌 1 싸잡히 1 흘어지 1 나쁘 1 뒈어지 1 끼운 1 약속히 1 빈둥빈둥하 1 아사삭아사삭하 1 들어뜨리 1 태리 1 꼬불거리 1 들들대 1 침뜨 1 비쭉거리 1 망울지 1 풀어젖히 1 속여넘기 1 히물대 1 둘라치 1 얼추잡 1 엇기대 1 쭈삣거리 1 움켜잡히 1 어찌저찌하 1 메달 1 깜박대 1 어정뜨 1 잡아묵 1 밀려다니 1 받아마시 1 잣뜨리 1 널브러뜨리 1 주섬거리 1 부르짓 1 핀잔먹 1 뭉싯거리 1 못박히 1 이러이렇 1 쒜 1 느껴지 1 백이 1 자리잡히 1 어긋매끼 1 좁 1 촐싹거리 1 마주앉 1 챙겨두 1 털썩하 1"

/-- soynlp/lemmatizer/dictionary/default/Stem/Verb.txt:5001-5100 -/
def verbs50 : List (Str × Nat) := rows! "걸어내려오 1 버둥치 1 들피지 1 사루어지 1 펄렁이 1 뭉글거리 1 욕되 1 흐트러트리 1 버벅대 1 주물르 1 흐느적대 1 포치 1 여울거리 1 승나 1 쭐어들 1 봐 1 구비돌 1 쓰리맞 1 니루 1 타나 1 찝적거리 1 씻기우 1 밀어제끼 1 꼬무락거리 1 퍼뜩거리 1 달라들 1 빠딱빠딱하 1 깻박치 1 안피우 1 쥐뜯 1 미끄덩대 1 들어앉히 1 안섬기 1 헛잡 1 궁금해하 1 흥청망청대 1 탕탕거리 1 알른거리 1 미루어지는주되 1 삐걱대 1 꿈틀꿈틀하 1 짤그랑거리 1 울먹울먹하 1 허턱대 1 옴치 1 노여하 1 구시렁대 1 들이놓 1 지분덕거리 1 딸깍거리 1 밀키 1 달랑이 1 죽뻗 1 푸르륵거리 1 방싯하 1 때뜨 1 바람맞히 1 횡설수설대 1 사태지 1 붙들어매 1 미역미역하 1 몰려서 1 철커덕거리 1 뿌서뜨리 1 쿵하 1 푸실거리 1 치뻗치 1 치근덕대 1 그만허 1 못거두 1 비끌리 1 꼲아물 1 촉하 1 거스리 1 누레지 1 찰랑찰랑대 1 쩔뚝이 1 오르나리 1 껴입히 1 시켰 1 뚜벅거리 1 접어주 1 벗어나오 1 처마시 1 쩌벅거리 1 땍땍거리 1 꼬드라지 1 지무시 1 뻔쩍거리 1 들락이 1 버리적거리 1 부들대 1 티뜯 1 물커지 1 비뚜러지 1 둘러엎 1 흘게풀리 1 베물 1 부들부들하 1 작신나 1"

/-- soynlp/lemmatizer/dictionary/default/Stem/Verb.txt:5101-5200 -/
def verbs51 : List (Str × Nat) := rows! "쳐다뵈 1 동원하 1 거르렁거리 1 쫓겨나오 1 시시덕대 1 불려나가 1 능글대 1 내리뻗 1 이르키 1 헬렐레하 1 꼬꼬댁꼬꼬댁하 1 으쓱으쓱하 1 딸막딸막하 1 파고듣 1 맛물리 1 삐어지 1 시들어가 1 올르 1 찰랑대 1 싫 1 옹송거리 1 안사 1 할키 1 뭉게거리 1 따라잡히 1 번개치 1 질벅이 1 굼실거리 1 내려 1 헛걸음치 1 불그러지 1 못넘기 1 베틀 1 곧추서 1 쫄랑거리 1 얼먹 1 흙어보 1 뙤작뙤작하 1 부니 1 통제하 1 무턱대 1 빈둥빈둥거리 1 찔러박 1 부딪기 1 때르릉하 1 한허 1 형체없 1 꺽꺽거리 1 꼬나바치 1 씰룩대 1 퉤하 1 비치거리 1 못지르 1 드러내놓 1 올아오 1 철그렁거리 1 늘어놓이 1 겹지 1 무굽 1 맨들거리 1 치올리 1 뿡뿡거리 1 그렁저렁하 1 달각이 1 안지내 1 초하 1 이럭저럭하 1 숨차 1 주저물러앉 1 좆나 1 들붙 1 막아주 1 움쭉거리 1 넘겨보 1 손치 1 찡긋거리 1 불켜두 1 슁기 1 내대 1 인품되 1 묵새기 1 꺼불거리 1 흐트러놓 1 설워하 1 속삭속삭하 1 씰룩씰룩하 1 족대기 1 저라 1 쑤석쑤석하 1 끌어매 1 노박히 1 몰려나가 1 뿅가 1 타박타박하 1 꼬부러지 1 뛔나오 1 첩놓이 1 뒤헝클 1 수수덕거리 1 뼈끔거리 1"

/-- soynlp/lemmatizer/dictionary/default/Stem/Verb.txt:5201-5300 -/
def verbs52 : List (Str × Nat) := rows! "옥이 1 스쳐들 1 새빠지 1 따라올리 1 허부적거리 1 헤대 1 아른아른거리 1 진무르 1 치떨리 1 허청거리 1 야울거리 1 치닿 1 덧쓰이 1 막되 1 엉켜 1 되맞추 1 희번뜩이 1 흐물흐물하 1 못걸 1 감잡히 1 조잘조잘하 1 땅땅거리 1 반들대 1 먹어나 1 기대리 1 아롱젖 1 헐뜯기 1 대허 1 몽치 1 뚤레뚤레허 1 덜거덕덜거덕하 1 듣기 1 촐싹대 1 때려누이 1 웅키 1 표나 1 짜부러들 1 되풀 1 재하 1 엎질리 1 떼보 1 그카 1 내리몰 1 부쉬 1 떠뜰 1 조롱대 1 얼른거리 1 헐어빠지 1 꼬나보 1 애달 1 민주대 1 어쩌구저쩌구하 1 겸 1 꿈뻑대 1 휘갑치 1 절벅하 1 뻐들적거리 1 토막내 1 두집 1 차들어오 1 주절대 1 절리 1 빨빨대 1 갈아매 1 설익히 1 뺏어가 1 뺀들뺀들하 1 움츠러지 1 난리나 1 내어디디 1 핼끔거리 1 체받 1 쿵당거리 1 절거덕거리 1 날새 1 쉬슬 1 짜부러지 1 일어나오 1 재깍이 1 녹여내 1 목맺히 1 만대엽 1 사로 1 들쳐메 1 어어지 1 간댕이 1 못그리 1 버스러지 1 갈아먹 1 안들어가 1 꼬꼬댁거리 1 감싸안 1 얼부풀 1 오도독거리 1 주저않 1 안부르 1 좆빨 1 데빌 1 재키 1 졀 1"

/-- soynlp/lemmatizer/dictionary/default/Stem/Verb.txt:5301-5400 -/
def verbs53 : List (Str × Nat) := rows! "꾸루륵대 1 부추키 1 쫄르 1 후적거리 1 제판거리 1 때기 1 일렁대 1 비걱거리 1 쭈럭거리 1 저어하 1 멍멍거리 1 쫓이 1 안낳 1 웅웅대 1 수군덕거리 1 늦쳐지 1 나허 1 욕뵈 1 안드 1 되튕기 1 비실대 1 챙겨주 1 똑딱똑딱거리 1 미끌리 1 샘나 1 휘이 1 말똥대 1 접부치 1 못싸 1 일르 1 더나 1 옴쭉하 1 흘금거리 1 허비적대 1 되내이 1 치쌓이 1 엇붙 1 푸닥거리 1 놀아먹 1 부끄리 1 탄허 1 처먹이 1 발매되 1 돌돌거리 1 끌려다니 1 어우려지 1 궁싯거리 1 안모시 1 수근수근거리 1 좆까 1 소미 1 죄죄거리 1 깔깔껄껄거리 1 쩔쩔하 1 제의하 1 눗 1 쳐들어올리 1 묶히 1 못죽 1 안내려가 1 놀려먹 1 못만나 1 새파래지 1 섯돌 1 번득하 1 집적이 1 펴이 1 파드득거리 1 안들어오 1 메어꽂 1 눈물나 1 콜록대 1 듸미 1 괴오 1 안살 1 조물거리 1 생각잖 1 짤라내 1 듣어가 1 내리덮이 1 꺼들리 1 어긋물리 1 어물대 1 드설레 1 디지 1 간당간당하 1 따겁 1 모지라지 1 엎으러지 1 킁킁대 1 아하 1 뻐티 1 대가 1 삐이하 1 우두둑하 1 덧잇 1 반짝반짝거리 1 돌어가 1 쩔렁이 1 시새우 1"

/-- soynlp/lemmatizer/dictionary/default/Stem/Verb.txt:5401-5500 -/
def verbs54 : List (Str × Nat) := rows! "쳐박히 1 퍼득거리 1 삣 1 붙좇 1 미끄러떨어지 1 목놓 1 글쓰 1 매주 1 아 1 괴이 1 덜렁이 1 엄벙뗑하 1 처올라오 1 까뭇거리 1 이었는지단주하 1 늘큰거리 1 끔쩍하 1 궁싯궁싯대 1 곱송그리 1 되튀 1 내려쓰 1 볼가지 1 굽이돌 1 복작거리 1 철거덩거리 1 다려가 1 쪄죽 1 욱씬거리 1 떠지 1 조초하 1 깃눌리 1 푹석거리 1 비아냥대 1 반싯 1 돌려먹 1 구슬지 1 토끼 1 덜겅거리 1 뭉거지 1 어룽지 1 꺽꺽대 1 들이앉 1 삭삭거리 1 희동그라지 1 부러트리 1 편가르 1 서이 1 둥당거리 1 미끈덩거리 1 덮누르 1 껑충이 1 끙끙하 1 째프리 1 조심조심하 1 알량나 1 못먹이 1 더디 1 짤라먹 1 이리되 1 얼쑤덜쑤하 1 에후리치 1 연노랗 1 꺼우르 1 가로놓 1 퍼드덕거리 1 뫄 1 기둘리 1 빼죽하 1 뭉글 1 파먹히 1 고꾸라뜨리 1 누지르 1 일궈먹 1 뻘뻘거리 1 다리걸 1 두드려맞 1 젼디 1 잘근거리 1 쌕쌕하 1 멕히 1 궁성거리 1 전달하 1 어긋장나 1 껌벅껌벅하 1 여희 1 뭉퉁그리 1 뽀족하 1 바끼 1 흠흠거리 1 움씰거리 1 독나 1 엉까 1 갋 1 들부시 1 더되 1 비뚜 1 쓰리 1 벌쭉거리 1 빤질빤질하 1 벌쁘 1"

/-- soynlp/lemmatizer/dictionary/default/Stem/Verb.txt:5501-5600 -/
def verbs55 : List (Str × Nat) := rows! "버벅되 1 드 1 와들거리 1 추기 1 초들 1 깨끗하 1 임허 1 나울치 1 광내 1 깜틀하 1 퍼래지 1 추오르 1 덥적대 1 걸터눕 1 외돌 1 쳉기 1 선뵈 1 짓투디리 1 깎이우 1 부수뜨리 1 안죽 1 식식대 1 잘리우 1 젖먹이 1 줄서보 1 잡죄 1 삐리 1 섣부르 1 단정짓 1 깐죽거리 1 안오르 1 욺기 1 들랑거리 1 빨아당기 1 떠다박지르 1 나자빠눕 1 그리멀 1 스믈거리 1 더듬대 1 붙잽히 1 저찌하 1 발름발름하 1 되작이 1 둘러씌우 1 엉겨들 1 희번득거리 1 쪼르륵거리 1 만드 1 퍼가 1 쫄아들 1 기울기울하 1 여유있 1 물려오 1 딱감 1 못꾸 1 들씩거리 1 비껴나 1 나눠주 1 깜짝거리 1 휘번뜩이 1 쳐묵 1 오둥키 1 흘려주 1 황망거리 1 두리번두리번거리 1 어쭈 1 꺄르륵거리 1 쩔룩이 1 헐딱거리 1 짓쪼 1 뭉텅이지 1 군시렁거리 1 느려빠지 1 홀기 1 꾸무적거리 1 갈고 1 맞장뜨 1 콩콩대 1 휴식하 1 꿈벅꿈벅하 1 칙칙거리 1 쟁그랑거리 1 닥닥거리 1 나즉하 1 떠올르 1 배움하 1 동그라지 1 연결짓 1 철그덕거리 1 지절대 1 희뜩거리 1 빼트리 1 재잘재잘거리 1 비허 1 희끗희끗하 1 퇴박맞 1 꼬무작거리 1 시 1 있어야하 1 모질라 1"

/-- soynlp/lemmatizer/dictionary/default/Stem/Verb.txt:5601-5700 -/
def verbs56 : List (Str × Nat) := rows! "엎어뜨리 1 쿡쿡대 1 곁드리 1 맞기 1 화끈하 1 비뚤비뚤하 1 드러오 1 그 1 힐끔대 1 느물느물하 1 값하 1 훌떡훌떡하 1 구실르 1 못느끼 1 나무래 1 해롭히 1 떨그럭거리 1 딸싹거리 1 쪽찌 1 으르대 1 놀구먹 1 안떨어지 1 떠놓 1 움츠려뜨리 1 늦잡죄 1 왕왕대 1 배불리 1 살판나 1 쩔뚝거리 1 스쳐가 1 닿을락말락하 1 충격받 1 바람잡 1 짜집 1 분하 1 불끈불끈하 1 패래 1 긁어들이 1 쫓어가 1 지신거리 1 버드럭거리 1 지켜 1 쫓아하 1 치러 1 가물대 1 따따거리 1 벙글 1 앙양하 1 깜작하 1 응그리 1 내려뜨 1 폴폴거리 1 굽피 1 내뚫리 1 멀뚱멀뚱대 1 맞두 1 줄이치 1 팔아묵 1 허우대 1 속아넘어가 1 쉐 1 끼르륵거리 1 어룽이 1 흔혀빠지 1 뒤쓰 1 내리밀 1 바지 1 끈치 1 뱌빗거리 1 모지라 1 에둘리 1 빈둥대 1 절절매 1 아쉽 1 살빼 1 신세지 1 백절치 1 퍽거리 1 후줄그레하 1 들까부르 1 쫓어댕기 1 청대 1 뻐드덩거리 1 철컹거리 1 즘차 1 소스라지 1 펄떡이 1 찔벅대 1 말뚱거리 1 헛나오 1 붙박이 1 허예지 1 잡어먹 1 쏙닥거리 1 떨여지 1 우당투탕대 1 지글지글하 1 말씀하 1 제대로되 1 방실거리 1"

/-- soynlp/lemmatizer/dictionary/default/Stem/Verb.txt:5701-5800 -/
def verbs57 : List (Str × Nat) := rows! "깔깔깔거리 1 너털너털하 1 기어들어오 1 옹알대 1 꾸이 1 넘점직히 1 젖어들 1 내들 1 출썩이 1 가벼이하 1 비쭉비쭉하 1 비웃음치 1 공굴리 1 깨작거리 1 저루 1 굽신굽신하 1 복돋우 1 안밟 1 껄껄거리 1 군드러지 1 휘날리이 1 비쭉이 1 소리내 1 열띄 1 충구리 1 할기작거리 1 갸웃갸웃하 1 이죽대 1 오라지 1 딸랑대 1 맞대들 1 여짜 1 벌어 1 굵히 1 그러안 1 키득대 1 들어 1 비지 1 비쭉대 1 마무리 1 허겁지겁하 1 컹컹대 1 깜빡대 1 늘여뜨리 1 거슬르 1 알는척하 1 내어다보 1 고와하 1 걸우 1 짬나 1 끄잡 1 오지 1 갸웃대 1 안돌 1 시시껍절하 1 엇물 1 바득대 1 안쏘 1 아리 1 굽어던지 1 덧깔 1 관심없 1 쳐얹 1 더펄대 1 주춤주춤하 1 갈라뜨리 1 오싹거리 1 아롱짓 1 자불 1 히들거리 1 내어둘르 1 떨쳐나서 1 구다보 1 똥별나 1 이즈러지 1 이쁘 1 나댕기 1 덜덜덜덜거리 1 참섭허 1 들이몰리 1 종종거리 1 베프 1 되걸리 1 찰지 1 이렇 1 노젓 1 삐꿈거리 1 흘끗거리 1 스멀스멀하 1 아스러지 1 쳐가 1 되뱉 1 야옹거리 1 환하 1 뒤마르 1 나딩굴 1 쭈물대 1 진득거리 1 침뱉 1 허벌나 1"

/-- soynlp/lemmatizer/dictionary/default/Stem/Verb.txt:5801-5900 -/
def verbs58 : List (Str × Nat) := rows! "짜랑대 1 거칠어지 1 붙여잡 1 버무르 1 눈치보 1 깍깍하 1 설취하 1 되착거리 1 번쩍번쩍거리 1 찡얼대 1 껄떡거리 1 교감 1 젂 1 겉물키 1 보글대 1 당히 1 걷어잡 1 안듯 1 뿜기 1 안먹 1 둘러마시 1 말미아 1 곁달리 1 겯고틀 1 진대 1 디비뿌 1 복닥대 1 쳐내리오 1 배끼 1 시렵 1 씨월거리 1 뿡뿡하 1 펄럭하 1 맞보이 1 꺽이우 1 쓰이우 1 설처대 1 뿌지뿌지하 1 펄럭펄럭하 1 바싹바싹하 1 말똥말똥하 1 외하 1 껌벅껌벅거리 1 내리우 1 줴지르 1 떠들썩거리 1 껌벅하 1 꼬륵거리 1 종잘거리 1 마주대 1 쐬이 1 저럭하 1 까바지 1 타박거리 1 숫기있 1 챙키 1 데꾸가 1 내블 1 내려쪼이 1 우지직거리 1 되살아오 1 휘번득이 1 불어터지 1 을리 1 짜그러지 1 찡박 1 이시 1 꾸르륵하 1 꾸치 1 줄여보 1 묻잡 1 말마암 1 돌리어놓 1 힐금거리 1 체체거리 1 안풀 1 쫄리 1 생글하 1 글썽대 1 몰고가 1 데억지 1 쭈얼거리 1 머츰거리 1 물새 1 염하 1 도부치 1 지지르 1 괴얹 1 마다하 1 질적대 1 뻔쩍이 1 때려부수 1 아무르 1 터벌터벌하 1 뒤보아주 1 달싹하 1 못돌리 1 구두덜거리 1 울르 1 움크러들 1"

/-- soynlp/lemmatizer/dictionary/default/Stem/Verb.txt:5901-6000 -/
def verbs59 : List (Str × Nat) := rows! "못구하 1 옮겨다니 1 뛰댕기 1 나비대 1 바동대 1 쳐드리 1 그으르 1 재롱떨 1 못팔 1 이저리지 1 뽂 1 남아돌아가 1 우쭈렁거리 1 뻔질들락하 1 허우적허우적거리 1 대끼 1 휘뚝거리 1 덮어씌 1 꺼꾸러뜨리 1 덜컹대 1 못받들 1 후닥닥거리 1 꼴 1 가로치 1 들려다보 1 깨물리 1 덧덮 1 같히 1 세련되 1 빠치 1 조을 1 접질리 1 짤 1 떠넘어오 1 진행하 1 쪼각내 1 축추기 1 해허 1 내립뜨 1 욱대기 1 내리뻗치 1 치느끼 1 악악거리 1 벳기 1 달그락대 1 곱질 1 어정어정하 1 달창나 1 조물락조물락거리 1 계속하 1 남들 1 치어다보이 1 가로건너 1 부르대 1 죽어지내 1 홰덕거리 1 추어주 1 츠츠즉거리 1 아른아른하 1 칠칠맞 1 으쓱이 1 알으키 1 무너져내리 1 뒤집어씌 1 김메 1 씨다듬 1 서대 1 동당거리 1 구어박 1 흐드러지 1 맡추 1 둘어앉 1 끔쩍이 1 안넘어가 1 헤실거리 1 뛰다니 1 아삭거리 1 뽈작거리 1 노릿노릿하 1 첨범거리 1 찬하 1 모아들 1 엉정벙정하 1 직접거리 1 까딱허 1 뒷걸음질치 1 못채 1 고맙 1 안내키 1 두릿거리 1 입하 1 몰려댕기 1 들어붓 1 웅성웅성하 1 버둥질치 1 팔랑대 1 못히 1 쑤석이 1 흐흥거리 1 말허 1"

/-- soynlp/lemmatizer/dictionary/default/Stem/Verb.txt:6001-6100 -/
def verbs60 : List (Str × Nat) := rows! "기록하 1 처부 1 구겨뜨리 1 두고보 1 내배 1 깎뜻하 1 드놓 1 오순도순하 1 팔굽히 1 이냐는하 1 몽그라지 1 안붙 1 삐걱하 1 절름대 1 차올라오 1 추려내 1 멋쓰 1 착하 1 도 1 잦추르 1 농하 1 빨가벗기 1 다가쥐 1 쿠당탕거리 1 쭈긋거리 1 분명하 1 웅덩거리 1 접치 1 벙글거리 1 지끈대 1 푸썩이 1 안만나 1 올되 1 까불대 1 쥐어트 1 간댕간댕하 1 직직거리 1 몰겨들 1 못참 1 못돼먹 1 발달시키 1 꿍짝꿍짝거리 1 주뼛거리 1 써붙이 1 뭉기 1 웂애 1 희번득이 1 노닥이 1 따먹히 1 착착진행되 1 올섞이 1 안대 1 후들후들거리 1 짬매 1 으쓱대 1 희번덕이 1 비추어들 1 긁어먹 1 옭매 1 깝대 1 내리달리 1 덧놓 1 되물리 1 슬러 1 어긋찔리 1 빠알개지 1 안넘기 1 얼밋거리 1 어물쩡대 1 달콤떨 1 애지중지되 1 왈왈대 1 썩어들어가 1 못피우 1 풀어헤뜨리 1 길리우 1 짤리우 1 비롯되 1 쎄 1 들러가 1 짜끈하 1 뿌수 1 럯이 1 멍하 1 우물우물거리 1 물어뜯기 1 되삭이 1 해롱해롱거리 1 업수여기 1 가로잡 1 술술하 1 픽하 1 잡아끌리 1 붕하 1 째주 1 있었 1 거들거들하 1 미적미적거리 1 꿈질하 1 힐끗거리 1"

/-- soynlp/lemmatizer/dictionary/default/Stem/Verb.txt:6101-6200 -/
def verbs61 : List (Str × Nat) := rows! "치렁거리 1 덜커덩하 1 사각이 1 거들먹대 1 뜨리 1 망청하 1 이스러지 1 건들대 1 꺼끌거리 1 팔락이 1 나투 1 뒤찮 1 받고채 1 엉금거리 1 대롱대 1 들이밀리 1 알은체하 1 우라리 1 들여쌓 1 폴싹거리 1 짱나 1 틀어붓 1 도리키 1 젠체하 1 줄지어서 1 들쳐업 1 질컥거리 1 뒤비지 1 흽쓸 1 꼴각하 1 맞어떨어지 1 파묻치 1 삐꺽이 1 헥헥거리 1 우왕자왕하 1 흥흥하 1 맏대 1 들날락거리 1 못외 1 좔좔하 1 떨렁거리 1 시종하 1 계면돌 1 휘둘르 1 뗑그렁거리 1 덜렁덜렁거리 1 우르 1 사그락거리 1 되넘기 1 누그러트리 1 할딱이 1 들이덤비 1 벌게지 1 벌벌거리 1 들부수 1 다가세우 1 지직거리 1 에돌리 1 덮쳐들 1 올라솟 1 훍 1 울렁대 1 되잡 1 티 1 달강거리 1 움치 1 쥐어뜯기 1 껴묻히 1 처자빠지 1 염치없 1 밀어붙히 1 추근덕거리 1 처너 1 픽픽거리 1 다오치 1 주삣하 1 풀치 1 아무리하 1 안올라가 1 빠삭허 1 삐쭉이 1 짤랑거리 1 치달 1 딸삭딸삭거리 1 안버리 1 꿍얼거리 1 뻥긋뻥긋하 1 울근거리 1 짓부수 1 꼬지르 1 짜그라지 1 못짓 1 뿌개 1 쓰어버릇하 1 소쿠라지 1 히히힝거리 1 께적께적하 1 밀려나오 1 누벼오 1 닳아빠지 1"

/-- soynlp/lemmatizer/dictionary/default/Stem/Verb.txt:6201-6300 -/
def verbs62 : List (Str × Nat) := rows! "볶아치 1 소홀히하 1 생긋하 1 까르르하 1 접지르 1 붙히 1 폼잡 1 깣이 1 맞동여매 1 떠돌리 1 미적미적하 1 낑기 1 안두 1 지다리 1 중간치 1 이미륵저미륵하 1 으하 1 되물어지 1 기신기신하 1 꺼덕이 1 꺼풋하 1 곧이들리 1 궃 1 팡기 1 비벼지 1 탕탕하 1 안매 1 까빡까빡하 1 집쩍이 1 어리비치 1 쌜기죽대 1 뒤쫓기 1 까르륵대 1 버글거리 1 깨묵 1 고작하 1 벌받 1 꼬놔대 1 왱왱거리 1 허청이 1 허우적이 1 해롱거리 1 꼽들 1 집어들 1 곱실곱실하 1 넘놀 1 안바르 1 글 1 옹그리 1 주뼛주뼛하 1 눈주 1 이끌어가 1 짜지 1 앙앙거리 1 못맡 1 꺽쉬 1 빌미삼 1 움츠려들이 1 뿡빵하 1 다물리 1 내노 1 끄르럭대 1 찌끄러지 1 우왕좌왕하 1 날려쓰 1 앵앵하 1 추절거리 1 뭉게지 1 못떨어지 1 서둘르 1 씨워리 1 터져나가 1 뽀드득하 1 씹치 1 길리 1 나불나불하 1 주르르하 1 꼬라박 1 설렁거리 1 다우치 1 자박자박하 1 달가닥거리 1 잔탄허 1 물려들 1 지긋지긋허 1 지음치 1 히히거리 1 밀려닥치 1 썪 1 화산되 1 안카 1 버둥버둥대 1 까매지 1 낑낑매 1 구깃구깃하 1 나라지 1 째깍거리 1 지끈하 1 팔락팔락하 1 운지하 1"

/-- soynlp/lemmatizer/dictionary/default/Stem/Verb.txt:6301-6400 -/
def verbs63 : List (Str × Nat) := rows! "꺽 1 오무락조무락거리 1 자청히 1 되몰 1 휘둘 1 자르아말하 1 찿 1 조기 1 적이 1 쪼크리 1 못맺 1 헛놓이 1 일떠서 1 뻔쩍뻔쩍하 1 감빨 1 수튼니 1 싱글벙글거리 1 뺏겨버리 1 딜리버리하 1 질벅질벅하 1 우당탕대 1 화끈대 1 뚝딱뚝딱하 1 헛놀리 1 다르 1 웩웩거리 1 늠 1 벗나 1 꺼 1 뒤져내 1 넘너지 1 지질나 1 겪음허 1 기이 1 맞뚫리 1 능갈치 1 샐쭉거리 1 성질나 1 까벌리 1 쩔렁하 1 쪼으려 1 썰리 1 마추 1 튀하 1 수군덕수군덕거리 1 주뼛하 1 둥둥하 1 철썩하 1 찾으가 1 출렁출렁하 1 켰어보 1 벌름벌름하 1 깨갱대 1 우닐 1 극변하 1 떠들치 1 곱접 1 이글이글하 1 일하 1 똥기 1 탁탁하 1 떼치 1 대롱대롱하 1 공글리 1 옹이지 1 또드락거리 1 수선수선하 1 세상모르 1 갈아부치 1 꼽들이 1 뽈시 1 가리와 1 슬쩍하 1 빼어놓 1 정치 1 번갈아보 1 찌걱하 1 추히 1 속닥속닥하 1 흐늘흐늘하 1 혼 1 복받히 1 이상쩍 1 올라채뜨리 1 비슬거리 1 디비 1 아려들 1 내바치 1 이리 1 일렁일렁하 1 뒤채이 1 앙당그러지 1 감아차 1 뒤뚱뒤뚱하 1 벗어제치 1 틀어올리 1 메슥메슥하 1 얕잡아보 1 정허 1 쩔뚝쩔뚝거리 1"

/-- soynlp/lemmatizer/dictionary/default/Stem/Verb.txt:6401-6435 -/
def verbs64 : List (Str × Nat) := rows! "퉁퉁거리 1 알찐거리 1 날름날름거리 1 깩깩하 1 뺏들 1 헛보 1 디다리 1 히히덕대 1 아니꼽 1 세아르 1 못입 1 맞맺 1 쉭쉭거리 1 카바하 1 푸르락거리 1 조패 1 얕잡히 1 수군수군대 1 퇴박하 1 쪼쳐댕기 1 활활거리 1 고스러지 1 꺼묻 1 오족잖 1 좇아다니 1 들랑이 1 못열 1 안있 1 넋빠지 1 삐주 1 그럭저럭하 1 우지끈거리 1 들어닥치 1 머쓱거리 1 사재 1"

/-- the parts of soynlp/lemmatizer/dictionary/default/Stem/Verb.txt in order. -/
def verbsParts : List (List (Str × Nat)) := [verbs0, verbs1, verbs2, verbs3, verbs4, verbs5, verbs6, verbs7, verbs8, verbs9, verbs10, verbs11, verbs12, verbs13, verbs14, verbs15, verbs16, verbs17, verbs18, verbs19, verbs20, verbs21, verbs22, verbs23, verbs24, verbs25, verbs26, verbs27, verbs28, verbs29, verbs30, verbs31, verbs32, verbs33, verbs34, verbs35, verbs36, verbs37, verbs38, verbs39, verbs40, verbs41, verbs42, verbs43, verbs44, verbs45, verbs46, verbs47, verbs48, verbs49, verbs50, verbs51, verbs52, verbs53, verbs54, verbs55, verbs56, verbs57, verbs58, verbs59, verbs60, verbs61, verbs62, verbs63, verbs64]

/-- all rows of soynlp/lemmatizer/dictionary/default/Stem/Verb.txt in order. -/
def verbs : List (Str × Nat) := verbsParts.flatten
end Data
