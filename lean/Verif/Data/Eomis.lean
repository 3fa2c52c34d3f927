import Verif.Py.Words
/-! Generated by tools/gen_packaged.py from soynlp/lemmatizer/dictionary/default/Eomi/Eomi.txt: do not edit. -/
namespace Data
open Py

/-- soynlp/lemmatizer/dictionary/default/Eomi/Eomi.txt:1-100 -/
def eomis0 : List (Str × Nat) := rows! "ㄴ 485264 는 330417 고 252397 아 147845 어 127599 게 121385 은 98742 지 81803 면 45842 아서 36145 을 33103 며 26969 면서 20697 어서 20326 라고 19833 아야 19285 라는 19099 던 19066 라 17873 다는 16600 어야 15788 ㄴ다는 14940 었던 14372 았던 13100 다고 12712 지만 11302 도록 10417 ㄹ 9413 아도 9163 으면 9095 다 9004 니 8621 ㄴ다고 8467 자 7879 거나 7655 다가 6942 는데 6938 아서는 6889 았을 6331 여 6028 었을 6014 라도 5809 어도 5751 ㄴ지 5336 으며 5214 어 4940 었다는 4916 았다는 4809 ㄴ가 4781 구 4710 었다고 4661 았다고 4497 려고 4337 려는 4334 었고 4328 란 4307 ㄴ다면 4180 ㄴ데 3853 았지만 3844 다면 3733 어지어 3725 고는 3708 니까 3566 았고 3474 지도 3385 었지만 3374 라면 3315 지는 3281 더라도 3263 면서도 3129 나 2949 듯 2825 아 2712 고자 2702 든 2607 었는데 2581 는지 2571 러 2526 려 2520 았는데 2463 ㄴ다 2412 았으나 2338 여서 2324 겠다는 2321 어지는 2226 므로 2215 으면서 2206 어서는 2189 고도 2174 곤 2032 겠다고 1961 듯이 1938 더니 1882 었으나 1813 든지 1795 아서 1732 아서도 1730 는다는 1723 게도 1689 으니 1656"

/-- soynlp/lemmatizer/dictionary/default/Eomi/Eomi.txt:101-200 -/
def eomis1 : List (Str × Nat) := rows! "어주는 1634 자는 1622 려면 1561 어지고 1514 자면 1499 는가 1491 으나 1490 았다가 1459 기에 1361 ㄴ가를 1351 었는지 1309 었다 1298 았으며 1280 았다 1255 었으며 1248 아지고 1245 여야 1217 어지지 1177 시는 1129 았는지 1098 아지는 1097 자고 1086 었다가 1055 어가는 1053 어주고 1040 어놓고 1021 겠지만 1013 어다 999 었으면 975 고서 920 아주는 918 는다고 904 을까 903 아야만 901 자마자 899 았으면 893 요 887 으려고 885 어야만 874 냐 871 으므로 846 면은 842 었다면 821 어야 813 건 810 ㄴ지도 808 으니까 807 어서 797 아지어 745 었으니 728 어서도 727 느라 720 야 699 았더니 698 았으니 696 어놓은 689 은데 688 았다면 687 느냐 670 으려 633 라고도 629 ㄴ가가 623 아야 622 으면서도 618 ㄴ지를 617 냐고 616 단 614 어가고 593 지가 592 느라고 578 되 558 었으므로 556 으러 555 어내는 553 으려는 537 는다면 536 ㄴ단 524 라고는 523 시면 517 아주고 514 을지 508 ㄴ지는 500 시고 497 ㄴ데도 495 는데도 493 어하는 484 는가를 476 었더니 473 다시피 471 지를 470 는지를 453 라서 452 어가며 447 어서의 433 아하는 414 냐는 405 는지도 402 라든가 402 였던 395 느냐고 393"

/-- soynlp/lemmatizer/dictionary/default/Eomi/Eomi.txt:201-300 -/
def eomis2 : List (Str × Nat) := rows! "게는 393 ㄴ가에 389 기에는 371 고만 368 으라고 366 을지도 356 어지게 356 리라는 355 아서만 354 아보면 352 라구 352 겠다 345 아놓고 344 았을 343 느냐에 342 ㄴ들 340 는다 336 다며 327 았으므로 323 아지면 323 아서야 322 느냐는 321 어지어야 317 았듯이 311 었나 311 어오는 310 고서는 304 았다 303 어있는 303 였을 300 게까지 300 아놓은 299 어보면 297 어내고 294 게만 292 어대는 292 었거나 289 라며 289 게끔 285 었는지도 285 다가는 285 어라 284 어보는 283 다가도 282 어다가 281 었는데도 281 어두고 279 리라 278 아요 276 여도 274 아지어서 274 어버리고 272 었을 270 리라고 268 어지면 268 게나 261 으려면 259 을수록 259 어버리는 259 아달라고 258 아보고 257 였는데 256 어지었던 256 아가는 256 았나 255 어주지 253 어지어서 251 아주지 246 다보니 245 아서가 244 어들고 244 거든 242 어요 240 었기에 240 어보고 240 아지면서 239 았는데 238 아가지고 237 려던 237 면서부터 236 자니 235 어지면서 235 어서야 234 었지 234 았거나 232 고야 228 다보면 225 아있는 222 아내는 222 었단 222 았는데도 221 았어도 220 라야 220 ㄴ다거나 219 시어서 218 ㄹ려고 217 은지 216 어나가는 216 구나 210 으리라는 204"

/-- soynlp/lemmatizer/dictionary/default/Eomi/Eomi.txt:301-400 -/
def eomis3 : List (Str × Nat) := rows! "아보니 204 아보지 203 았단 203 았는가 203 는가에 202 아는 201 았지 198 았더라면 197 아가며 197 ㄴ다며 194 아지지 194 었는가 192 더라는 192 아도 191 었던 191 거니와 190 ㄴ지라 190 았으니까 189 어주어야 188 아들고 179 아보아야 179 다니 178 어가지고 178 아라 177 려니 176 았어야 176 시던 176 었을지도 176 ㄹ까 176 는지는 174 었듯이 172 었어 171 려다 171 아보는 170 았던 170 었는지는 167 었어도 167 어달라고 167 네 167 었던지 166 아가고 166 ㄴ다든지 166 길래 164 아다 163 고서도 163 아오는 163 려다가 162 아주어야 161 어나오는 161 고서야 161 ㄴ가는 160 아버리고 160 었는지를 160 어보니 159 았는지도 159 어도 158 겠으나 157 ㄴ가의 156 었어 156 아야지 155 어주면 154 든가 154 으리라 153 어내어 153 애 151 ㄴ다구 151 ㄴ다든가 151 다구 150 었으니까 150 ㅔ요 149 겠느냐는 149 지만은 149 였더니 147 랄 147 죠 147 어지자 146 으리라고 145 었더라면 145 시지 145 어서부터 144 아오았던 143 다고는 143 아버리는 143 어보지 141 겠지 141 았어 140 으라는 140 어만 139 아야하겠다고 137 아지자 137 겠는데 136 어오았던 135 기 134 아주면 134 아지게 133 아달라는 132 아야하겠다는 132 어두 132 겠느냐고 131 지나 131"

/-- soynlp/lemmatizer/dictionary/default/Eomi/Eomi.txt:401-500 -/
def eomis4 : List (Str × Nat) := rows! "였어 130 ㄴ지에 130 어주며 129 어서가 127 어지었을 127 었는데 127 라든지 126 는지에 124 어지었다는 123 었을까 122 었던가 122 어지었다고 122 여요 121 었는가를 121 느니 121 은가 120 ㅂ니다 120 어놓는 120 었는 119 았을지도 119 겠다며 119 어가면서 119 어들는 118 었다 118 았기에 118 았는가를 117 어내지 116 아내고 116 어두는 116 었어야 116 게든 115 았던지 115 았자 114 건만 114 노라면 113 지않은 113 았다며 113 ㄹ지 112 시었던 112 느냐가 112 다거나 112 아오던 111 아두 111 게나마 110 아서라도 109 었다가는 108 아오고 107 ㄴ다면서 107 시면서 106 았는지는 106 려는데 106 어야지 106 다면서 105 었든 104 았어 103 어지었고 103 시며 102 았다가는 102 어오아 101 어지며 101 았는지를 101 았을까 100 어오고 100 ㄴ데다 100 아지며 100 여서는 97 어놓을 97 어나오아 97 아나가는 97 어보아도 97 라고나 97 믄 96 더라고 96 면서까지 96 어요 95 어대고 95 라고만 95 ㄹ려구 94 아가면서 94 ㄹ라 94 는것이 94 ㄴ즉 93 던데 93 거니 92 리만큼 92 시게 92 건대 92 었다고는 92 더라 92 었겠지만 91 아지어야 91 라니 90 ㄴ것이 89 겠는가 89 어들어 89 다라고 89 에요 88 아하고 88 어가아 88 어보아야 88"

/-- soynlp/lemmatizer/dictionary/default/Eomi/Eomi.txt:501-600 -/
def eomis5 : List (Str × Nat) := rows! "시어야 87 아지었다는 86 ㄴ답시고 85 넌 85 아요 85 지마는 85 었다고 84 더니만 84 아두고 84 ㄴ데에다 84 았다가았다 83 시다시피 83 기에도 83 아만 83 였다 83 다고도 83 라거나 83 어주면서 82 ㄴ데다가 82 래도 81 어나가고 81 아지었고 81 았더라도 80 았으면 80 어오던 80 었으면 79 아먹고 79 니만큼 79 아먹는 79 었다며 79 어다니는 78 으면은 78 았었는데 77 라면서 77 아다가 76 냐에 76 어하고 76 랴 76 였다고 75 아대는 75 어하지 75 아내어 75 겠노라고 75 여두 74 았느냐고 74 었느냐고 74 ㄴ다는데 74 시었을 73 어주어 73 어야하겠다고 73 습니다 72 어지던 72 았으면서도 72 었으면서도 72 어주던 72 겠는 71 였다는 71 아보았자 71 나마 71 어두었던 71 어넣고 70 ㄴ다니 70 았었다고 70 어보려고 70 여야지 69 었을지 69 아하며 69 던지 69 았다가 68 어서나 68 았는 68 는단 68 ㄴ다고는 68 았다고 68 먼 68 어야하겠다는 68 랄까 68 라두 68 아두는 67 았었다는 67 어먹는 67 라지만 67 리라고는 66 여 66 아두어야 66 었어요 66 ㄴ다니까 66 었더라도 66 는구나 66 아지었다고 66 였으면 65 아지었을 65 ㄹ라고 64 냐를 64 시니 64 었나 64 고있는 64 느냐의 63 느냐를 63 어나가아 63"

/-- soynlp/lemmatizer/dictionary/default/Eomi/Eomi.txt:601-700 -/
def eomis6 : List (Str × Nat) := rows! "라는데 63 고부터 63 어놓으면 63 아서나 62 아두 62 어나가아야 62 었다는 62 구서 62 었구나 62 면서는 62 아보라고 61 도 61 어내어야 61 는가는 61 어가던 61 어달라는 61 어대며 61 어주었던 60 아서는 60 어지는 60 았건만 60 았다고는 60 었어요 60 어나는 59 았었던 59 지않아 59 냔 59 겠고 59 어하았던 58 였어요 58 었건 57 겠어 57 어보라고 57 ㄴ다고도 57 려니까 57 애요 56 겠느냐 56 어가아야 56 어두면 56 아내지 56 ㄴ해 55 아내며 55 시었다는 55 시라고 55 으란 55 어내며 55 아주며 55 거든요 55 었느냐 55 어지도록 55 다든가 55 아보려고 54 아보아도 54 다는데 54 었다니 54 았을지 54 었느냐는 54 라고까지 54 아주시어요 53 ㄴ가로 53 아하지 53 시었는데 53 습니다만 53 았어요 53 어먹고 53 는데는 53 어보았자 53 았겠지만 52 어지었지만 52 려구 52 아먹을 51 ㄴ가라는 51 는지라 51 어놓지 51 노라고 51 라니까 51 려고만 51 였나 50 겠으니 50 어야지 49 아버리면 49 시어도 49 려니와 49 더란 49 라던 49 어보며 49 어가게 49 어있던 49 아두면 48 겠다면 48 더라구 48 아지거나 48 어들게 47 았건 47 았느냐는 47 아야지 47 ㄹ수록 47 시다가 47 았다면서 47 았구나 47"

/-- soynlp/lemmatizer/dictionary/default/Eomi/Eomi.txt:701-800 -/
def eomis7 : List (Str × Nat) := rows! "었으리라는 47 을까보아 47 으라 47 았느냐 47 겠다던 47 디 47 아오아 47 았다고도 47 오 47 을지는 46 으려니 46 ㄴ지가 46 아보자는 46 아지었던 46 았으니까 46 어지거나 46 어나오고 46 지두 46 은년은 45 ㄴ가에게 45 을는지 45 았더니 45 어먹은 45 아라 45 고부터는 45 았다는데 45 다고만 45 었노라고 45 어라고 44 냐며 44 ㄹ려면 44 어넣은 44 어두 44 ㄴ다지만 44 았어요 44 어지지는 44 었다고도 44 어올리어 43 어내리는 43 시었다고 43 ㄴ디 43 어지어가는 42 어오르는 42 어두지 42 았었지만 42 어주게 42 았노라고 42 어놓고는 42 어주었으면 42 어앉아 41 였는지 41 어주려고 41 냐구 41 어대던 41 ㄴ다던 41 어서라도 41 나말나 40 어다 40 았던가 40 았지 40 겠거니 40 어라 40 시어 40 은년이 39 ㄴ가에서 39 으려니까 39 였지 39 는대로 39 ㄴ대 39 았다는 39 아주던 39 었건만 39 으시면 39 시었지만 39 려고도 39 어지었다 39 어보자는 39 었다면서 39 였잖아 38 어넣는 38 시구 38 시어요 38 어지곤 38 어주었다는 38 아두었던 38 어버리면 38 ㄴ달 37 으련만 37 였으니까 37 지않아도 37 아지었으며 37 어하던 37 아주었던 37 니깐 37 시는데 37 아오았고 37 어지었으나 37 으시는 37 겠구나 37 거늘 37"

/-- soynlp/lemmatizer/dictionary/default/Eomi/Eomi.txt:801-900 -/
def eomis8 : List (Str × Nat) := rows! "어보았지만 37 은년의 36 니하아도 36 시었으면 36 아보려는 36 는지의 36 아오면서 36 았다니 36 다니까 36 어가면 36 자며 36 었었는데 36 던가 36 어오아서 36 고가는 35 으시고 35 었으리라고 35 았듯 35 아주었으면 35 래두 35 구요 35 ㄴ께 35 어먹을 35 으려던 35 ㄹ지도 35 ㄴ대도 35 시면은 34 을지라도 34 으리란 34 다지만 34 아하던 34 지않게 34 었는지에 34 다느니 34 겠죠 34 아주어서 34 어가아서 34 다라는 34 여지는 34 ㄴ가도 33 ㄴ다라고 33 아주려고 33 ㄹ라구 33 아오았다는 33 어지는데 33 다든지 33 어지지도 33 어보게 33 시니까 33 으려다 33 시었고 33 았든 33 았나 33 었다구 33 면서부터는 33 었지 33 어보면서 33 ㄴ소리로 32 시겠지만 32 아쥐고 32 ㄹ려 32 아오지 32 어다니며 32 냐가 32 었냐는 32 아주어 32 어오면 32 었는가에 32 아내어야 32 지않고 32 을려고 32 어지었는데 32 어들어가아 32 을지언정 31 여라 31 겠어요 31 노라니 31 아보게 31 아주면서 31 아보겠다는 31 으라면 31 겠냐는 31 는가의 31 리란 31 니께 31 ㄴ다더니 31 구서는 31 았으리라는 31 ㄹ라면 31 어지었으며 31 겠단 31 어오르고 30 어넣어 30 아서만이 30 아보자고 30 냐의 30 였지만 30 게하는 30 어올리는 30 어있지 30"

/-- soynlp/lemmatizer/dictionary/default/Eomi/Eomi.txt:901-1000 -/
def eomis9 : List (Str × Nat) := rows! "고라도 30 아오았다고 30 겠으며 30 어보이는 30 구는 30 어버리었다는 30 겠다구 30 겠다면서 30 ㅑ 29 ㄴ것을 29 으리라고는 29 아있을 29 ㄴ가와 29 는데다 29 어지어가고 29 어지어도 29 아지던 29 어버리지 29 어두어야 29 까 29 으시어서 29 서 29 아놓는 29 어내려는 29 고나아서 29 는다거나 29 라느니 29 어하며 29 는디 29 드라 29 어가지 29 어버리어 29 어주곤 29 랍시고 29 아서만은 28 아지는 28 어서만 28 어올라가아 28 겠으면 28 려는지 28 어지지만 28 았거니와 28 ㄴ대로 28 려거든 28 든간에 28 았었고 28 는가가 28 어오지 28 어지었는지 28 아보았지만 28 ㄴ다느니 28 아보고자 28 았다거나 28 았는가에 28 어오았다는 28 어보지도 28 아지도록 28 래야 28 여서도 27 아하게 27 어서어서 27 ㄴ듯이 27 어지지가 27 어내게 27 는데에다 27 고보니 27 어올리며 27 아서부터 27 아나가고 27 ㄴ듯 27 어올리고 27 어들어가는 27 었는지 27 았으리라고 27 시었으니 27 ㄴ지조차 27 자구 27 이 27 시곤 27 을려구 27 래 27 기로 27 아내려 26 어모으아 26 였다가 26 는다며 26 어오르아 26 은데도 26 아놓을 26 시는지 26 겠네 26 더라두 26 어주려는 26 냐면 26 아주어도 26 아서든 26 ㄴ고 26 아나가아야 26 겠냐고 26 여지고 26"

/-- soynlp/lemmatizer/dictionary/default/Eomi/Eomi.txt:1001-1100 -/
def eomis10 : List (Str × Nat) := rows! "어주겠다고 26 어주거나 26 고픈 26 어놓았던 26 으려다가 26 어보려는 26 ㄴ시절 25 잘 25 다놓고 25 게밖에 25 어죽을 25 ㅁ 25 ㄴ데서 25 었던들 25 겠나 25 거라 25 리만치 25 어내리고 25 려나 25 드라구 25 겠습니다 25 드라구요 25 았다구 25 소 25 았다고나 25 었다지만 25 어오았을 25 시더니 25 아지므로 25 어내려 25 어두었다가 25 어주어서 25 아다 24 어서서 24 ㄹ게 24 으되 24 아서까지 24 고보면 24 을까를 24 아있던 24 는지조차 24 였단 24 아놓으면 24 였었는데 24 아오았으나 24 아지려고 24 구두 24 아가아 24 아오아서 24 나를 24 으시었던 24 는지가 24 어가았고 24 았는지 24 어나가지 24 어먹던 24 어버리었던 24 었다는데 24 담 23 아서라면 23 았자 23 ㄴ지의 23 게야 23 아지었으나 23 어나오지 23 어들지 23 아대고 23 어내었다는 23 아주겠다고 23 아오면 23 다던 23 어내려고 23 을라 23 었습니다만 23 어주었다고 23 아지어가는 23 었으리라 23 어가 23 아지었지만 23 어놓아 23 ㄴ채 23 어주려 22 아오라고 22 아도가아도 22 어하아 22 아보겠다고 22 아보아서 22 었다간 22 아먹은 22 었든지 22 어주겠다는 22 어지고 22 아가아야 22 어있다는 22 았는지에 22 았다지만 22 시려고 22 느라구 22 라나 22 어버리게 22"

/-- soynlp/lemmatizer/dictionary/default/Eomi/Eomi.txt:1101-1200 -/
def eomis11 : List (Str × Nat) := rows! "었냐고 22 어오았다고 22 매 22 였었던 21 다주는 21 아야하는 21 다못하아 21 어다놓고 21 았더니만 21 았길래 21 다고나 21 게되는 21 을라고 21 였다구 21 시나 21 아보니까 21 으냐고 21 었으니까 21 아보려 21 었구 21 시었는지 21 든지간에 21 ㄴ만큼 21 었잖아 21 았느니 21 었다고나 21 대 21 아버리어 21 군 21 었단 21 어주었을 21 어보아 21 았냐고 21 어지어서는 21 아지니까 21 어주고는 21 어오면서 21 었다던 21 어오게 21 아지는데 21 아지었다 21 었다거나 21 아지곤 21 아닿는 20 아듣은 20 았다가았다하는 20 아서도 20 아주시는 20 였고 20 어들어가고 20 어다니면서 20 아나오아 20 으랴 20 어보니까 20 어버리었다고 20 어보라는 20 었고 20 으믄 20 어있어 20 어보려 20 련만 20 어놓아야 20 었다가 20 시도록 20 었었다는 20 래는 20 었던가를 20 았지마는 20 어지므로 20 어오았지만 20 는데서 20 어가았던 20 어오았고 20 았다가도 20 어보았을 20 오니 20 애서 19 겠습니다만 19 아오았지만 19 자니까 19 아놓고는 19 아주시면 19 아보라는 19 ㄴ다면은 19 아오았을 19 고싶은 19 아주겠다는 19 게라도 19 어넣으며 19 아두었다가 19 다고까지 19 아보지도 19 잔 19 자는데 19 어있을 19 시라는 19 어지었다가 19 어내면 19 어보겠다는 19 었길래 19"

/-- soynlp/lemmatizer/dictionary/default/Eomi/Eomi.txt:1201-1300 -/
def eomis12 : List (Str × Nat) := rows! "시다 19 아가던 19 았습니다만 19 지요 19 ㄴ다지 19 ㄴ다고만 19 어지더니 19 게시리 19 어주었고 19 리 19 았으리라 19 어나고 18 고나 18 으냐 18 을지를 18 어물고 18 니까는 18 아오르는 18 ㄴ적이 18 아두지 18 어쓰는 18 아주도록 18 ㄹ래 18 아주었다는 18 라고밖에 18 아주니 18 다를 18 으라구 18 아주었을 18 어있고 18 시겠다고 18 아주러 18 어나 18 자던 18 어주지도 18 어드리고 18 어놓아서 18 았다구 18 어대니 18 아지었는데 18 ㄴ후 18 었습니다 18 아보았으나 18 ㄴ다고나 18 았다든가 18 어갖고 18 기로서니 18 어나가면 18 고를 18 나깨나 17 어퍼지고 17 ㄴ가하면 17 아있지 17 어붙어 17 어주고자 17 어치우는 17 아놓고도 17 ㄴ날 17 ㄴ길 17 어다주는 17 ㄹ려는 17 께 17 는둥 17 아오다 17 은데에다 17 는다니 17 어지니까 17 마고 17 은지를 17 아보도록 17 시지만 17 시자 17 았어야 17 어는 17 어서까지 17 아주었고 17 어내면서 17 고의 17 었거든 17 아서의 17 어지었다면 17 아보았더니 17 겠다니 17 았다던 17 아주려는 17 어가려는 17 아버리었다는 17 더라구요 17 라더니 17 었었던 17 었다가도 17 ㄴ산을 16 아서부터는 16 아주거나 16 아먹지 16 으려나 16 아다니는 16 시고는 16 을는지도 16 을망정 16"

/-- soynlp/lemmatizer/dictionary/default/Eomi/Eomi.txt:1301-1400 -/
def eomis13 : List (Str × Nat) := rows! "였거든 16 어있다고 16 았냐 16 어내어서 16 어보내는 16 고나면 16 어다니고 16 ㄹ려면은 16 음 16 었다구 16 어지지 16 어놓으며 16 어가자 16 었거니와 16 았단 16 아버리어야 16 다만 16 아야하겠지만 16 어들면서 16 어주어도 16 아보면서 16 았고 16 시느라 16 아지려는 16 어보도록 16 아주시어서 16 었으면서 16 어버리어야 16 어놓았을 16 어야하는 16 어버리었을 16 어나가게 16 었으되 16 았네 16 었나를 16 라지 16 ㄴ데요 16 어퍼지는 15 은하아 15 아주듯 15 았다오는 15 아보지만 15 아나오는 15 ㄴ즉슨 15 을뿐더러 15 어지었으니 15 아올리는 15 겠는지 15 아야하겠다 15 어가는데 15 대는 15 겠기에 15 다더니 15 는데다가 15 어넣을 15 는가도 15 아오았는데 15 아가게 15 겠냐 15 아하면서 15 어놓고도 15 어보곤 15 았잖아 15 시라 15 냐로 15 어하면서 15 어보았더니 15 아지더니 15 아지었는지 15 다마는 15 었듯 15 었지마는 15 어놓게 15 아지지만 15 아버리지 15 어가았을 15 ㄹ게요 15 노라 15 았다든지 15 느냐며 15 어버리곤 15 어보던 15 어업고 14 ㄴ길을 14 너라 14 다하고 14 였었어 14 으시며 14 았더면 14 아드리고 14 아나가면서 14 아가지 14 어가니 14 아오았으며 14 을래야 14 었는가는 14 다간 14 습니까 14 었더니 14 어입고 14"

/-- soynlp/lemmatizer/dictionary/default/Eomi/Eomi.txt:1401-1500 -/
def eomis14 : List (Str × Nat) := rows! "었어야 14 았지만 14 어대면서 14 시었다가 14 으려고도 14 자면서 14 어보이며 14 아놓지 14 었잖아 14 ㄴ대야 14 고가 14 었을까를 14 어놓았다는 14 어보았으나 14 로구나 14 아버리었던 14 었냐 14 겠다는데 14 어보겠다고 14 어주자 14 다의 14 거들랑 14 었냐 14 제 14 는다구 14 어드리지 14 었느냐에 14 았든지 14 래서 14 어지는지 14 어가았다고 14 었다든가 14 은년을 13 ㄴ시절의 13 을지에 13 어서만은 13 지만도 13 아서보다는 13 아대며 13 아드리는 13 어내리어 13 는만큼 13 으냐는 13 았다지 13 아내려고 13 아들어가는 13 라곤 13 니깨 13 시면서도 13 았으면서 13 았노라는 13 는다든가 13 어주듯 13 드니 13 나니 13 어들어오아 13 아가았던 13 는가라는 13 어먹으며 13 어내던 13 아보았으면 13 아보았는데 13 아주었다고 13 ㄴ다하아도 13 어주도록 13 았는가는 13 고서라도 13 어가다 13 았다니까 13 아지어서는 13 았으되 13 어보았던 13 아놓았던 13 었네 13 아가면 13 었더란 13 느니만 13 었죠 13 아버리었다고 13 어나가았던 13 다보니까 13 어가도록 13 느냐로 13 어주지는 13 더래두 13 어대어도 13 네만 13 ㄴ바 13 시더라도 13 ㄴ다기에 13 어놓아도 13 았나를 13 며를 13 어오다가 13 ㄴ산이 12 은체를 12 였드니 12 아서나마 12 았겠느냐는 12 고오는 12"

/-- soynlp/lemmatizer/dictionary/default/Eomi/Eomi.txt:1501-1600 -/
def eomis15 : List (Str × Nat) := rows! "아서만큼은 12 였어야 12 아란 12 어들면 12 았었는데 12 어죽은 12 을만큼 12 ㄹ까요 12 았다시피 12 으나마 12 아대던 12 아야하았던 12 아내면 12 아버리자 12 어가면서도 12 ㅂ시다 12 었다지 12 였냐 12 아먹으며 12 어내어야만 12 았다간 12 았네 12 냐면서 12 시려는 12 아내었던 12 아하거나 12 아주듯이 12 았을까를 12 어대었지만 12 어지지를 12 어가다가 12 으시던 12 아지었다가 12 는다든지 12 시었단 12 어지듯 12 겠노라 12 어나가면서 12 어지었으면 12 어주라고 12 어오았는데 12 어내었던 12 겠습니까 12 아주게 12 시었나 12 었는디 12 노니 12 어보고자 12 어지려는 12 아야겠다는 12 았을망정 12 어지나 12 어지어야만 12 아보이는 12 어내었다고 12 랄지 12 어버리었으니 12 어보자 12 어버리어서 12 건간에 12 았던가를 12 려는가 12 었다니까 12 ㄴ터를 11 어나오려는 11 을는지는 11 어치우고 11 게서야 11 다놓은 11 을래 11 으시어도 11 은년과 11 어오자 11 겠다라고 11 아하시는 11 아있다는 11 게든지 11 아올리며 11 어다놓은 11 였는 11 은께 11 어내려가아 11 어내듯 11 어모으는 11 았었는지 11 어대다가 11 어하아야 11 시었듯이 11 아먹게 11 어내었을 11 겠느냐며 11 은데다 11 고말는 11 아하아 11 아놓아 11 은가를 11 어가야 11 아나 11 아들어 11 ㄹ지는 11"

/-- soynlp/lemmatizer/dictionary/default/Eomi/Eomi.txt:1601-1700 -/
def eomis16 : List (Str × Nat) := rows! "을라구 11 어놓았으니 11 아지는가 11 ㄴ다던데 11 어지고는 11 어지는가 11 아버리었고 11 라서가 11 으시다면 11 든데 11 시오 11 을라치면 11 어가아도 11 어대었던 11 어대자 11 드라도 11 었다느니 11 어나가아서 11 시거나 11 어나가며 11 았는지가 11 은들 11 었던지라 11 아주지는 11 었었다고 11 었는지가 11 었을망정 11 어대었고 11 어오았으며 11 아지어가고 11 었었으나 11 었었고 11 아붓어 10 게모르게 10 아붓고 10 아지어어 10 ㄴ돈을 10 ㄴ가에는 10 ㄴ산 10 어지나가는 10 게까지는 10 았다오면 10 어죽는 10 어뵈어도 10 지가아 10 어나르는 10 소서 10 아주었지만 10 어하는 10 어다니어야 10 어살는 10 으먼 10 는다는데 10 어대지만 10 어앉은 10 ㄴ대는 10 아야하겠는데 10 었다던가 10 으시시면 10 어나오면서 10 어지었거나 10 아하면 10 시냐고 10 아주시고 10 으면서는 10 ㄴ지와 10 어하았고 10 는바 10 았다만 10 아먹던 10 면서두 10 어지면서도 10 ㄴ다고까지 10 다는것이 10 어지니 10 느냔 10 어올라가는 10 어내었지만 10 어드리는 10 으리만큼 10 아올리어 10 아가아서 10 건마는 10 로되 10 어버리려는 10 어나게 10 드라두 10 었구 10 ㄴ다면서도 10 아버리게 10 으시시고 10 아주지도 10 겠다거나 10 였구 10 는가와 10 거던 10 아보자 10 어주시고 10 어가듯 10 었지만 10"

/-- soynlp/lemmatizer/dictionary/default/Eomi/Eomi.txt:1701-1800 -/
def eomis17 : List (Str × Nat) := rows! "어보자고 10 으시어야 10 었는지조차 10 아오게 10 아내었다는 10 어나오던 10 어버리었으면 10 어대곤 10 은것이 10 었거든요 10 우 10 어놓구 10 ㄹ걸 10 ㄴ대요 10 겄다고 10 아보았을 10 으면서부터 10 모 10 으면서까지 10 았는지의 10 겠지마는 10 느냐와 10 어하거나 10 었다고만 10 시라면 10 았습니다 10 면요 10 달 10 았었으나 10 느냐도 10 어야겠다고 10 도록까지 10 어오라고 10 어하면서도 10 었 10 어버리었고 10 어주니 10 어놓았는데 10 ㄴ틈없이 9 아붓은 9 어다달라고 9 ㄴ가로부터 9 ㄴ병을 9 고보아야 9 다주고 9 아지어오는 9 구려 9 ㄴ봄에 9 은바 9 어죽게 9 었거든요 9 어죽지 9 ㄴ가보다 9 으려니와 9 어들며 9 어들어가아서 9 아서뿐 9 다면은 9 아주어야만 9 아내던 9 려들는 9 시다면 9 고요 9 느니만큼 9 은데다가 9 았거든 9 어주시면 9 고가아 9 고오아 9 다는데도 9 어지어만 9 어나가려는 9 자면은 9 을려면 9 시느라고 9 어가았다는 9 다하아도 9 겠는가를 9 았었다면 9 아버리어서 9 어하는데 9 ㄹ래면 9 아보곤 9 아보던 9 시거든 9 어하면 9 아주자 9 어주시던 9 아버리곤 9 아내어서 9 마 9 아내곤 9 려고는 9 아오았는지 9 어보지만 9 어다니다가 9 어대어 9 ㄹ라면은 9 ㄴ지나 9 어보더니 9"

/-- soynlp/lemmatizer/dictionary/default/Eomi/Eomi.txt:1801-1900 -/
def eomis18 : List (Str × Nat) := rows! "겠거든 9 는걸 9 니라고 9 리라던 9 면서야 9 려고까지 9 어오았으나 9 어대어서 9 어지려고 9 ㅂ니까 9 ㄴ것 9 어두어 9 어보아서 9 아지니 9 며는 9 어보고는 9 어놓곤 9 더냐고 9 았느냐에 9 어나가던 9 었을는지도 9 어주었는데 9 어주다가 9 ㄴ뒤 9 는데요 9 라던가 9 어버리고는 9 아주는데 9 아지지가 9 어주었지만 9 아지어도 9 나마나 9 어지었는가 9 ㄴ데는 9 시다니 9 ㄴ게 9 어다만 8 은년에게 8 라하았는지 8 ㄴ배로 8 은돌 8 아다보이는 8 아붓는 8 ㄴ바람이 8 았다가았다하며 8 는이가 8 다대고 8 아나오며 8 아하는데 8 어맞고 8 어받아 8 어주는데 8 아들고는 8 고가아서 8 어들었던 8 았었던 8 아나가지 8 아먹어야 8 ㄴ병 8 는이의 8 어버리려 8 았던들 8 아먹어 8 어버리던 8 아주었어야 8 어나지 8 아넣은 8 다면야 8 아넣는 8 으시시는 8 어가는지 8 어들어오는 8 아하아야 8 은지라 8 은채 8 겠노라는 8 시었으니까 8 옵고 8 어내려가는 8 아나오면서 8 어지었을지도 8 락 8 는고 8 어가았지만 8 아잡고 8 지먼 8 아버리었을 8 았죠 8 어내야 8 아주곤 8 을수 8 지않는 8 ㄴ다던가 8 ㄴ대서야 8 어지다가 8 아지려면 8 으시었을 8 어지었는데도 8 아내면서 8 어주시는 8"

/-- soynlp/lemmatizer/dictionary/default/Eomi/Eomi.txt:1901-2000 -/
def eomis19 : List (Str × Nat) := rows! "시지는 8 으리 8 어버리지는 8 시리라 8 면야 8 어들자 8 으매 8 ㄴ가부터 8 아내었을 8 아가자 8 라하아 8 아보아 8 어주시었으면 8 아놓아야 8 오나 8 어주어야만 8 어대면 8 ㄴ다면야 8 문 8 아내듯 8 아오곤 8 니를 8 어주시어서 8 아보며 8 았냐 8 다고밖에 8 였네 8 어버리자 8 아주고는 8 아야겠다고 8 라면은 8 겠어서 8 아보았던 8 먼서 8 어내느라 8 게하고 8 어오며 8 어오다 8 아오며 8 아지었으니 8 아지어만 8 았었을 8 ㄴ대서 8 어야겠다는 8 었을지라도 8 어지다 8 었죠 8 어버리거나 8 사 8 아지었으므로 8 았을지라도 8 았다고까지 8 았을지는 8 라가 7 고작은 7 은년 7 ㄴ길로 7 거니받거니 7 을이만큼 7 ㄴ시절에 7 을시구 7 아안고 7 아서라는 7 지말아라 7 애도 7 ㄴ번 7 어넘기며 7 어지어나오는 7 러가아서 7 을까에 7 다구나 7 아하구 7 아하니 7 라든 7 ㄴ눈이 7 어들곤 7 시먼 7 ㄴ밥 7 ㄴ터가 7 노라니까 7 아보라 7 시었다 7 어야하았던 7 ㄴ불이 7 어보내고 7 았었더라면 7 아안은 7 어박고 7 어지어버리고 7 라는지 7 면서라도 7 어나오자 7 느라면 7 고다니는 7 어모으고 7 아주시었으면 7 다지 7 았다느니 7 ㄴ지부터 7 라야만 7"

/-- soynlp/lemmatizer/dictionary/default/Eomi/Eomi.txt:2001-2100 -/
def eomis20 : List (Str × Nat) := rows! "어버리려고 7 은지도 7 아오아야 7 ㄴ것은 7 지않으면 7 데 7 였죠 7 아주구 7 어내지는 7 더래도 7 았겠지 7 아들며 7 았는지조차 7 은즉 7 였대 7 ㄴ댔자 7 았구 7 어내고자 7 어먹구 7 어붙은 7 아오다가 7 으까 7 아가지고는 7 시기에 7 어쓰고 7 어내자 7 아가지구 7 어나오아서 7 어가거나 7 으나말나 7 어지듯이 7 어하게 7 았니 7 로 7 어보거나 7 어들었을 7 었느냐가 7 았냐는 7 으시니 7 아오았으니 7 어오아야 7 었다를 7 다하아 7 으시었는지 7 아주시던 7 으리만치 7 어주기에 7 는가로 7 어지느냐 7 어넣지 7 어보았는데 7 어들고는 7 대요 7 시었기에 7 십시오 7 았더란 7 어주구 7 아가는데 7 았대 7 아달라 7 아있고 7 어넣었던 7 으니깐 7 아주었더니 7 은가에 7 라먼 7 어들었고 7 랴고 7 았구 7 었더니만 7 어버리겠다고 7 어지려면 7 는데에다가 7 아달라며 7 아주라고 7 다손 7 어주었더니 7 았대 7 아지는지 7 기에만 7 어내는데 7 아지었으면 7 여지구 7 시었다면 7 아지다가 7 아가았다고 7 었다라고 7 아지고는 7 아갖고 7 넌디 7 아지다 7 었네 7 아주자는 7 아두어 7 었구나 7 어들던 7 아놓아서 7 아가 7 었대 7 아나가아 7"

/-- soynlp/lemmatizer/dictionary/default/Eomi/Eomi.txt:2101-2200 -/
def eomis21 : List (Str × Nat) := rows! "어주고도 7 어대지 7 어지더라도 7 겠다니까 7 어놓았는지 7 아주었는데 7 아보거나 7 으려는데 7 어나가도록 7 려도 7 었냐면 7 면서만 7 았는디 7 ㄹ러 6 아도하아도 6 아듣고 6 기는 6 어지어오고 6 어서부터 6 은날의 6 아보이며 6 어달리어 6 고받고 6 어떨어지는 6 자하니 6 아불었다고 6 ㄴ녀석은 6 아나서는 6 ㄴ산은 6 아살리는 6 을지가 6 ㄴ들의 6 아붓을 6 아서조차 6 자꾸나 6 였듯이 6 다놓는 6 ㄴ들이 6 았다하았자 6 어죽고 6 은날 6 아서부터 6 아나는 6 아들는 6 아서까지도 6 었으려니까 6 려야 6 아하니까 6 아두어도 6 였는데도 6 오라 6 대서 6 였습니다 6 ㄴ돈 6 아오르아 6 아대니 6 아치우고 6 였으면은 6 어던지는 6 았겠느냐고 6 아오르고 6 어보았댔자 6 아드리지 6 아오았듯이 6 여하는 6 으랴마는 6 어야지만 6 았었는지도 6 아하아서 6 었더라 6 어보내어 6 ㄴ날의 6 ㄹ려니까 6 어지구 6 어지는지를 6 어보건대 6 아보았다하았자 6 여서만 6 였거든요 6 아하는지 6 였겠지 6 아가았을 6 어세우어 6 겠습니다마는 6 으시다고 6 어하지만 6 을라면 6 어서만도 6 았다고만 6 아들어가아 6 을때 6 어매는 6 겠구 6 ㄹ지를 6 아마시고 6 어오도록 6 어놓으려 6 은지에 6 으시었다면 6 고가고 6"

/-- soynlp/lemmatizer/dictionary/default/Eomi/Eomi.txt:2201-2300 -/
def eomis22 : List (Str × Nat) := rows! "다에서 6 는듯 6 어타고 6 았으리라고는 6 ㄴ김에 6 아내려는 6 어지었는지도 6 라는것이 6 어오았는지 6 아내도록 6 아나오고 6 아내어야만 6 어지리라고 6 어나오려 6 너냔 6 어하았지만 6 어내기에 6 였구나 6 어오았는지도 6 두 6 어대더니 6 옵건대 6 ㄴ것으로 6 더라면서 6 아말지 6 았네만 6 냐면은 6 어오곤 6 으시었다고 6 ㄴ즉은 6 으문 6 어다주고 6 아놓구 6 어내도록 6 였니 6 겠다고는 6 었었던 6 아죽고 6 게두 6 아놓았는데 6 어서만이 6 드라고 6 아드리어서 6 시려거든 6 시겠다는 6 어하았을 6 아주었으니 6 어지면 6 았잖아 6 아놓았다는 6 어지려 6 았었을 6 았느냐가 6 겠으므로 6 으려고만 6 고에 6 ㄴ다가 6 으나마나 6 으니만큼 6 어가았는지 6 아주니까 6 았더라는 6 아놓고서 6 어잡고 6 었군 6 었다든지 6 아버리거나 6 어내겠다는 6 어버리어도 6 어가았는데 6 어주리라 6 더냐 6 아먹으려고 6 어내었고 6 아주리라 6 었는지의 6 었넌디 6 았노라 6 어나가자 6 었다더니 6 고간에 6 어올라오는 6 겠군 6 는다면서 6 었었나 6 어버리었는지 6 네요 6 어놓았지만 6 겠니 6 어주느라 6 고있다는 6 었었지만 6 어가지구 6 어주었으나 6 지말고 6 았거늘 6 느니보다 6 두룩 6 시고자 6 시고도 6"

/-- soynlp/lemmatizer/dictionary/default/Eomi/Eomi.txt:2301-2400 -/
def eomis23 : List (Str × Nat) := rows! "었느니 6 노 6 는데만 6 아지었는데도 6 어나오았던 6 ㄴ가요 6 어젖히고 6 아주는지 6 었거니 6 었는지라 6 았거든 6 ㄴ다만 6 자라고 6 아보다가 6 어나가듯 6 건만도 6 다바치는 5 어서만큼은 5 어서와 5 아짊어지고 5 은아들은 5 디젊은 5 ㄴ한 5 어리랏다 5 는이는 5 아두시어요 5 아대면서 5 고박고 5 아붙은 5 ㄴ코 5 ㄴ곳까지 5 러오라는 5 자보자 5 았다오아서 5 란듯이 5 어살리는 5 ㄴ산의 5 지오아 5 으랴만 5 자살자 5 아두던 5 ㄴ길이 5 어서부터는 5 ㄴ눈을 5 어받을 5 어가 5 ㄴ잎 5 ㄴ눈 5 었겠느냐는 5 ㄴ몸으로 5 아대어도 5 여야만 5 아맞추어 5 어지었듯이 5 ㄴ이 5 아하지만 5 았을때는 5 어가았다가 5 을까가 5 어보이고 5 ㄴ배는 5 아주시어야 5 ㄴ맛을 5 아죽는 5 어내려오아 5 아서와 5 는다고도 5 는다고는 5 능 5 아먹으면 5 어치는 5 을세라 5 어다니다 5 았다가았다하고 5 아나가며 5 고나아 5 지야 5 는가고 5 아있어 5 겠다만 5 아지고 5 아까지 5 습니다마는 5 러도 5 고싶어 5 을런지 5 어지지도 5 아죽은 5 어던지고 5 었다라고 5 ㄴ가라고 5 어가는데도 5 리니 5 어하니 5 어있으면 5 어서까지도 5 어지자마자 5 었습니다 5 어붙는 5 었겠으나 5"

/-- soynlp/lemmatizer/dictionary/default/Eomi/Eomi.txt:2401-2500 -/
def eomis24 : List (Str × Nat) := rows! "어내고는 5 은디 5 아다니던 5 아올리고 5 어나아서 5 았으니께 5 았는가의 5 시죠 5 어오르며 5 였는지는 5 었던가는 5 어지구 5 어가자는 5 어붙이어 5 아오겠다고 5 으시고는 5 아올라가아 5 나보다 5 어입은 5 아버리었는지 5 노라는 5 께요 5 어들어서 5 었다나 5 어올리던 5 어오라는 5 아내리고 5 라고까지는 5 았었나 5 어다니지 5 ㄴ것도 5 으시게 5 어지거나 5 ㄴ줄 5 아지었는지는 5 아나가면 5 아오자 5 라고밖에는 5 어놓더라도 5 어보자면 5 시구요 5 어오아도 5 ㄴ다라는 5 ㄴ걸 5 었었는가를 5 어세우고 5 어다가 5 시었느냐고 5 어내었는데 5 어물며 5 았을지언정 5 어올리면서 5 았드니 5 어주겠다며 5 어주었으니 5 어먹게 5 는데야 5 는다고만 5 어두려 5 어오르던 5 었으련만 5 아보았다는 5 ㄴ가고 5 어들다 5 아오거나 5 어놓으려고 5 였든 5 아주어야하겠다고 5 다나 5 ㄴ꽃이 5 았거니 5 어들어가던 5 아가면서까지 5 시다는 5 아버리면서 5 였음 5 으니께 5 였는데두 5 어내듯이 5 어놓으니 5 어나가야 5 ㄴ척 5 라면서도 5 드래도 5 아나가도록 5 어서도 5 니라 5 었을지언정 5 아주다 5 다에 5 라고만은 5 아내고는 5 다시피하아 5 ㄴ데두 5 았으니깐 5 았던데 5 었을는지 5 어달란 5 어나오게 5 어놓는다고 5"

/-- soynlp/lemmatizer/dictionary/default/Eomi/Eomi.txt:2501-2600 -/
def eomis25 : List (Str × Nat) := rows! "다로 5 었거늘 5 으려는지 5 어보다가 5 세 5 어가려고 5 았으면은 5 지조차 5 란다고 5 어놓거나 5 아두었다는 5 어들이는 5 었더면 5 아보았다고 5 었다라는 5 어가면서까지 5 어있지만 5 았습니다 5 시겠어요 5 어놓고야 5 어내다가 5 어먹어 5 였잖아요 5 지말아 5 려하아도 5 아주시니 5 었을지는 5 어두고자 5 어놓았고 5 아주느라 5 시려면 5 아지었다고나 5 아보란 5 었대 5 여지지 5 어내거나 5 았 5 려하고 5 다란 5 자거나 5 ㄴ다길래 5 어놓는다는 5 로다 5 었지먼 5 어나가다 5 어주다 5 머 5 았을는지도 5 아지었을지 5 시는가 5 았었어 5 고나니 5 아지겠지만 5 아하았고 5 아하다가 5 어주겠노라고 5 었느냐로 5 었잖아요 5 시었겠지만 5 었다고까지 5 었었는지 5 아지어야만 5 아주지만 5 어놓았다고 5 고있어 5 아버리었는지도 5 지않던 5 어가라고 5 며가 5 아가았다는 5 려하지 5 었으리라고는 5 어주자는 5 아지지는 5 어나오았을 5 어버리었지만 5 다도 5 더마는 5 시라구 5 아내게 5 어버리 5 어놓았더니 5 었겠지 5 어있었던 5 어오면서도 5 어주었으며 5 었는지는 5 어주니까 5 여야 5 도가도 4 ㄴ깡통 4 ㄴ녀석이 4 ㄴ시절을 4 았으려니까 4 ㄴ들을 4 ㄴ바다에서 4 ㄴ잔을 4 은녀석이 4 러오아 4 ㄴ틈없는 4"

/-- soynlp/lemmatizer/dictionary/default/Eomi/Eomi.txt:2601-2700 -/
def eomis26 : List (Str × Nat) := rows! "어서보다 4 은염산의 4 ㄴ소리를 4 자듣자 4 아있었다고 4 ㄴ배에서 4 ㄴ애를 4 아안는 4 게굳게 4 어넘치는 4 어서처럼 4 ㄴ살 4 ㄴ짓 4 ㄴ머리를 4 어지나아 4 을때까지 4 았는지조차도 4 였다면 4 어다보이는 4 디맑은 4 ㄴ배가 4 어놓았으리라 4 어붙어서 4 은녀석을 4 는이로 4 아쥐며 4 어하시는 4 ㄴ호에 4 시었다시피 4 아내려가면 4 ㄴ번에 4 라하아도 4 어패는 4 으면야 4 어마시고 4 ㄴ바다로 4 어들어가듯 4 어오르았던 4 아내자 4 았다가았다하던 4 았구나 4 었더냐 4 어주듯이 4 겠을 4 ㄴ길에 4 였다든지 4 ㄴ빛을 4 아보이고 4 여지게 4 아보려던 4 았댔자 4 아내어도 4 러가는 4 ㄴ밤 4 은층이 4 어두고는 4 고돌아 4 러가았다가 4 어놓다가 4 어다주지 4 니라구 4 어올라가면 4 였소 4 게저렇게 4 였거나 4 어물는 4 고오아서 4 느라니까 4 아있다고 4 어누르는 4 아가다가 4 예요 4 아다가 4 ㄴ바다 4 아주시곤 4 어받는 4 어버리고도 4 어잡은 4 러다니는 4 러를 4 어대었으며 4 아터지어 4 어주시어야 4 였을 4 ㄴ거이 4 는다지 4 았다나 4 어젖히는 4 어나오며 4 아주느라고 4 아두도록 4 았든가 4 다던데 4 어내려가던 4 아서뿐만 4 어나가고자 4 어있는데 4 어주어야하겠다고 4 어주었으므로 4 ㄴ병과 4"

/-- soynlp/lemmatizer/dictionary/default/Eomi/Eomi.txt:2701-2800 -/
def eomis27 : List (Str × Nat) := rows! "아버리라고 4 게와 4 니만 4 였냐고 4 았느냐며 4 으시려면 4 려하았으나 4 아오 4 았대서가 4 어야제 4 여야죠 4 어젖히며 4 었겠나 4 러가았을 4 아놓았으니까 4 어주어요 4 어나던 4 나요 4 는다던데 4 어앉아서 4 으리니 4 다하게 4 어두라고 4 어내리며 4 었소 4 어놓으려는 4 여하고 4 어나가다가 4 ㄴ대두 4 아서두 4 아내라고 4 아보지는 4 았다가았다하면서 4 아오았는지를 4 누나 4 겠다든지 4 어지었단 4 어팔는 4 았니 4 어드리려고 4 였더니만 4 아먹으러 4 아서보다도 4 으시었고 4 였대요 4 걸랑 4 래니까 4 아나아서 4 으로 4 ㄴ곳 4 었대서 4 으시라고 4 어들려고 4 어담고 4 어지게 4 었는지와 4 느냐보다는 4 아있으며 4 대니까 4 대도 4 고들어가아 4 어내리면서 4 어들어오고 4 소만 4 어드리면 4 아라고 4 시려니 4 였었을 4 는족족 4 어야하겠고 4 고있던 4 어주느라고 4 어하시는 4 았으려니와 4 다손치더라도 4 어하았다는 4 ㄴ말로 4 어들어가면 4 아주지를 4 았다면 4 어지다시피 4 아주든지 4 ㄴ다하는 4 였냐면 4 았더라고 4 어올라가아서 4 았겠는가 4 었드니 4 었습니다마는 4 어보구 4 어두게 4 고싶다는 4 았다던가 4 도다 4 다시피하고 4 응께 4 아버리었지만 4 ㄴ대든지 4 였느냐 4 어지었지 4"

/-- soynlp/lemmatizer/dictionary/default/Eomi/Eomi.txt:2801-2900 -/
def eomis28 : List (Str × Nat) := rows! "구야 4 어하지는 4 는데두 4 시되 4 ㄴ다나 4 아지리라고 4 어얄 4 었겠는가 4 어오 4 어들더니 4 았었다 4 다가두 4 는것도 4 는다더니 4 었었어 4 아두자는 4 랴마는 4 어버리듯 4 아보이지 4 더만 4 어가겠다는 4 고까지 4 거나간에 4 어야하겠지만 4 어대거나 4 라하았다고 4 어두었으니 4 어오는데 4 어서는 4 어먹으면 4 어지었으므로 4 아오았는가를 4 려다보니 4 아오았으므로 4 아넣고 4 ㄴ다로 4 여지면 4 아지면서부터 4 어내려오고 4 는다고나 4 는지두 4 오며 4 어가구 4 어먹다가 4 아야만이 4 아가려는 4 어버리든지 4 어주겠지 4 아들어가면 4 어가지만 4 랴는 4 어나가리라 4 아서라두 4 어두자는 4 군요 4 아버리었으니 4 어야하겠다 4 시려 4 어지어서도 4 아내었고 4 게되는데 4 어보란 4 수 4 어들니 4 아나가게 4 건데 4 아넣을 4 어보았다하았자 4 아지려 4 다시피하아서 4 어나가았고 4 어버리자는 4 아오는지 4 았으리란 4 게되어 4 시었지 4 아주려 4 으리라던 4 니가 4 었잖아요 4 었으니깨 4 어내곤 4 어대었을 4 어다니게 4 어내어도 4 어들려는 4 겠다더니 4 잡시고 4 는냐 4 어버리자고 4 라던데 4 아지는데도 4 어지어오는 4 ㄴ다마는 4 려하았던 4 어가느냐 4 었을지 4 어나가는데 4 았을는지 4 아가는데도 4"

/-- soynlp/lemmatizer/dictionary/default/Eomi/Eomi.txt:2901-3000 -/
def eomis29 : List (Str × Nat) := rows! "게되고 4 어내라고 4 으시면서 4 아오았으니까 4 다기에 4 여서 4 아주리라고 4 어하아서 4 어나가겠다고 4 드래두 4 다와 4 어나가아야만 4 어나았다는 4 어놓았다가 4 어먹지 4 기에까지 4 겠다고만 4 였었지 4 어버리었거나 4 았다하아도 4 어주는지 4 더라지 4 아주다가 4 아두라고 4 어버리면서 4 으시시면서 4 으시시며 4 어가았으니 4 다하는 4 어지겠지만 4 는것 4 게가 4 어묵을 4 어붙이고 4 려들지 4 아지었는가 4 아버리려는 4 아버리겠다고 4 아가다 4 라든가를 4 아야하겠고 4 겠다고까지 4 은듯 4 어보이지 4 자가 4 어먹었다고 4 어야하겠기에 4 아하지도 4 는지와 4 었었다 4 아나가자는 4 아내었지만 4 았는지와 4 어보았으면 4 답니다 4 아먹어도 4 으시다가 4 으려구 4 ㄴ다손 4 었더냐는 4 어먹는다는 4 았다라는 4 아지었다면 4 아라는 4 고저 4 시단 4 었더라는 4 라꼬 4 어지리라 4 는등 4 어주므로 4 어두려고 4 어놓지는 4 어버리었으나 4 아내기에 4 어먹으려고 4 어넣으면서 4 ㄴ돌을 4 아두려는 4 았군 4 므로써 4 오만 4 었을까 4 았으니만큼 4 어내는가 4 아가았고 4 시었다는데 4 았다더니 4 아보고는 4 겠더라 4 어버리는가 4 아가려고 4 았는가라는 4 ㄹ지두 4 아내야 4 아하았다고 4 아하면서도 4 구만 4 겠구만 4 아내고야 4"

/-- soynlp/lemmatizer/dictionary/default/Eomi/Eomi.txt:3001-3100 -/
def eomis30 : List (Str × Nat) := rows! "어지었는지를 4 ㄴ대니까 4 어오르면서 4 서야 4 ㄴ가밖에 4 드만 4 거나를 4 어서두 4 어버리라고 4 어보이어 4 ㄴ다는것이 4 ㄴ고모는 3 은녀석은 3 어씌우어 3 꼬 3 아서마저 3 아있다면 3 어오았었다는 3 아넘고 3 아안으며 3 아죽을 3 아붓어도 3 고파 3 어떨어지어 3 아나가아서 3 어차고 3 었듯이 3 게길게 3 잘데없는 3 ㄴ밤중에 3 어누르고 3 음직하고 3 고늘어지는 3 아오았듯 3 어지었다시피 3 ㄴ봄의 3 언정 3 ㄴ애 3 어드리어 3 어하는지 3 아부르고 3 어잠그고 3 아타고 3 고받지 3 아닿은 3 어묻는 3 어먹으러 3 어두지는 3 ㄴ곳에서 3 아넘어 3 아치우는 3 어놓이어 3 어파고 3 었던지 3 ㄴ콩가루나 3 ㄴ바람을 3 아주었다면 3 구서도 3 으시기에 3 ㄴ펜으로 3 라시는 3 ㄴ데를 3 라의 3 은년에 3 ㄴ애들까지 3 았느냐면서 3 어나오았다고 3 어먹자는 3 어죽거나 3 어지어었다는 3 ㄴ물을 3 기도 3 어지었어도 3 어퍼지면서 3 아지지 3 아나서어야 3 ㄴ이의 3 시었습니다 3 어닥치는 3 아입은 3 ㄴ뜻을 3 은머리를 3 아하잖아 3 은숨을 3 어파는 3 은염산과 3 ㄴ주 3 아달라면 3 아닿지 3 어다보며 3 ㄴ시절로 3 시었듯 3 어지어버리는 3 았다오았다 3 ㄴ반사는 3 ㄴ터에 3 어서조차 3 어달아나는 3 고받은 3 아죽이는 3"

/-- soynlp/lemmatizer/dictionary/default/Eomi/Eomi.txt:3101-3200 -/
def eomis31 : List (Str × Nat) := rows! "은년도 3 여금 3 다팔는 3 아넘어가고 3 었다는듯 3 ㄴ체 3 아뵙고 3 ㄴ서리를 3 ㄴ고모 3 ㄴ맛이 3 아대어 3 어드리게 3 ㄴ단다 3 시자마자 3 어하았는지 3 아오는데 3 아앉아 3 어내아야 3 였었거든 3 드락 3 려다가는 3 아치는 3 ㄴ곳에 3 은밥을 3 겠지만서도 3 아나가려면 3 다하다 3 어들이어 3 아보았다 3 시느냐고 3 ㄴ배를 3 을거리와 3 어보라 3 아버리었으면 3 겠느냔 3 어지어라 3 아대었다는 3 어오르았고 3 아드리면 3 랴나 3 관데 3 을대로 3 어먹으려 3 어야만이 3 ㄹ래면은 3 아야하고 3 다대면 3 ㄴ아이들이 3 었거라 3 어치우면 3 어오르게 3 시었던가 3 어다보고 3 다달라고 3 였었구 3 라라고 3 았다오고 3 고지는 3 시던지 3 아내었다 3 어야겠고 3 아치우어야 3 으시다는 3 겠네요 3 았거든요 3 아야하겠다면 3 는다라는 3 는다니까 3 어의 3 시자고 3 어보아요 3 어놓는다면 3 ㄹ래니까 3 어받고 3 아보시면 3 어지었으니까 3 았는지는 3 어지어있는 3 아다니게 3 ㄴ놈을 3 었드니 3 ㄴ지두 3 아내아야 3 ㄴ애의 3 은빛은 3 어죽었을 3 아나고 3 ㄴ놈의 3 ㄴ일이 3 니어쩌니 3 어내고야 3 어놓으라고 3 나하고 3 어지는가를 3 어나오려고 3 아보리라고 3 아가겠노라고 3 어올리려 3 ㄴ숨을 3 아내려가는 3"

/-- soynlp/lemmatizer/dictionary/default/Eomi/Eomi.txt:3201-3300 -/
def eomis32 : List (Str × Nat) := rows! "었건 3 겠습니까만 3 어나가곤 3 어올리고는 3 어붙을 3 아오든지 3 어보지는 3 어두면서 3 아주면서도 3 어다니던 3 어박히어 3 어대니까 3 아대자 3 아버리겠다는 3 아주시며 3 ㄴ곳을 3 다주어도 3 어내려가다가 3 아보아야하겠다고 3 아서의 3 어담아 3 어올리어지어 3 어내려오는 3 어보내지 3 시지나 3 어놓으라는 3 음직도 3 어올리었을 3 어지어버리었다는 3 었겠느냐고 3 어감아 3 아드리려고 3 아듣을 3 어내려가면 3 어보려던 3 ㄴ놈이 3 ㄹ려나 3 어들도록 3 어대는데 3 으려거든 3 시다고 3 았었으니까 3 어드리어서 3 였었어야 3 였다라고 3 어매고 3 였건 3 ㄴ들에서 3 었었는데 3 랜 3 아보나말나 3 어주라는 3 었다던데 3 어쌓는 3 었다하았자 3 아먹지는 3 을까마는 3 아보세 3 았으니 3 어지는가에 3 으시었다니 3 으려다가는 3 었다오 3 고나오아 3 아놓곤 3 으면서부터는 3 어올리었다가 3 았다오다가 3 게하면 3 다는데야 3 었다시피 3 어두라는 3 아먹구 3 아치우었던 3 아로 3 었든지간에 3 ㄴ꽃을 3 어나가려고 3 었노라 3 었더라구 3 ㄴ데없고 3 ㄴ빛이 3 겠사오니 3 아물며 3 아보더라도 3 아먹었다고 3 어주시었던 3 아하는 3 ㄴ것과 3 어빠지어 3 아주려니 3 넌지 3 아오면서도 3 ㄴ날을 3 어패어 3 느니라 3 어담는 3 아가지고도 3 어달라구 3 은가는 3"

/-- soynlp/lemmatizer/dictionary/default/Eomi/Eomi.txt:3301-3400 -/
def eomis33 : List (Str × Nat) := rows! "으시었는데 3 어놓겠다고 3 어버리어야만 3 어놓자 3 았겠다 3 어나가지만 3 겠다고도 3 어오더니 3 냐도 3 았겠느냔 3 어가았다 3 어주러 3 어하고 3 아보리라 3 아두려고 3 어내니 3 어내다 3 니로 3 였었나 3 어보시고 3 으시시어야 3 어하니까 3 아하았을 3 믄은 3 았다하면 3 가 3 았었어요 3 아주고도 3 어오아서는 3 고있는데 3 아를 3 겠는가마는 3 었대요 3 아오도록 3 아다니면서 3 자하고 3 으라니 3 었게 3 었더라고 3 어버리었는지도 3 었다는것이 3 아내지는 3 어내었으나 3 었었나 3 어먹었다는 3 게스리 3 았으련만 3 려다보면 3 ㄴ가에로 3 라하았자 3 어오았는가를 3 라기에 3 는다느니 3 어나아 3 아야겠지만 3 아주어야하겠다는 3 어넣어서 3 련 3 ㄴ다하아 3 아가도록 3 라더니만 3 다라고는 3 어대아서 3 아야하 3 는대 3 어내었을까 3 믄서 3 어대면서도 3 었을때 3 어놓아야만 3 어버리고자 3 을것이 3 어하았으나 3 겠지요 3 었든간에 3 는다하아도 3 어서나마 3 자면서도 3 아보았는지 3 였는지에 3 시었으며 3 어가았으면 3 다놓을 3 어살고 3 사오니 3 아내었다고 3 어지리라는 3 고서부터 3 아나오아서 3 어두거나 3 었는지부터 3 었다고밖에 3 아주었으나 3 겠다느니 3 느니보다는 3 어야죠 3 았도다 3 게되자 3 지않다는 3 었다손 3"

/-- soynlp/lemmatizer/dictionary/default/Eomi/Eomi.txt:3401-3500 -/
def eomis34 : List (Str × Nat) := rows! "았으면은 3 어쥐고 3 았느냐의 3 어먹고도 3 아보아야만 3 을걸 3 어놓던 3 어주리라는 3 였어도 3 어버리며 3 지않을 3 ㄴ데가 3 아달란 3 는한 3 았습니다마는 3 아놓게 3 야하겠다는 3 아보아라 3 아하곤 3 다던가 3 어주지를 3 어들어도 3 ㄹ려다 3 아야죠 3 시와 3 어하구 3 었노라는 3 다말고 3 었다하아도 3 았겠냐는 3 아버리었는데도 3 ㄴ물이 3 았대요 3 어버리었는데 3 았었단 3 었니 3 시었으나 3 다하더라도 3 어대다 3 아가곤 3 네마는 3 려다가도 3 어있다면 3 으려야 3 어주기에는 3 어쓰면서 3 어보았다고 3 았더라 3 어있으며 3 ㄹ려다가 3 ㄴ다하아서 3 아버리려 3 아버리며 3 더니먼 3 어가았 3 시는지도 3 었다하아 3 아드리도록 3 어오거나 3 어있었고 3 는거 3 다주면 3 은데서 3 었어두 3 았냔 3 었건만도 3 는다라고 3 어주시지 3 았는가와 3 으시단 3 았을까가 3 어야겠지만 3 았지요 3 아나가려는 3 었다면 3 어보았다는 3 어들구 3 어주었다면 3 ㄴ집을 3 어버리지만 3 어지어오았던 3 었거든 3 어두었다 3 았다고밖에 3 었던데 3 어내려면 3 아오았는데도 3 노라며 3 였을지 3 어지었다면서 3 어지 3 었느냐에 3 아먹는다는 3 어서지 3 시길래 3 어버리겠다는 3 아지었으리라 3 아하았던 3 았으려니 3 어있어야 3"

/-- soynlp/lemmatizer/dictionary/default/Eomi/Eomi.txt:3501-3600 -/
def eomis35 : List (Str × Nat) := rows! "아주겠다며 3 어넣거나 3 어두었는지 3 겠더란 3 ㅂ니다만 3 어있다 3 는답시고 3 는것을 3 아가았지만 3 어드리어도 3 았었지 3 어버리듯이 3 았다뿐 3 게되었고 3 어달라며 3 어놓는다 3 고자하는 3 아주나 3 었읍니다만 3 어보이던 3 게를 3 어넣고는 3 아지 3 어놓겠다는 3 어오지는 3 고나아서도 3 았건만도 3 더라니 3 어버리었지 3 어보듯이 3 어지었는지에 3 어두려는 3 어오았으면서도 3 ㄴ다는디 3 았느냐를 3 는가하는 3 래지 3 을까도 3 어내려도 3 었느냐 3 어두었는데 3 다뿐 3 어지겠으나 3 아지지도 3 아놓는다는 3 아서만도 3 뭇 3 으시시던 3 아들이는 3 였었다 3 아두어야만 3 는것은 3 어놓았으나 3 으라며 3 어보는데 3 아오려고 3 아먹으면서 3 아하았지만 3 아서요 3 아주면은 3 아보라구 3 어올리더니 3 니까요 3 었겠다 3 을수가 3 았었는지를 3 는다지만 3 여야지만이 3 아지라고 3 았대서 3 아놓으며 3 었어서 3 어지어가던 3 어보리라 3 아서가아 3 아주리라는 3 어들어야 3 더라며 3 게만은 3 었달 3 느냐보다 3 아주느냐 3 어주어야하겠다는 3 았던가는 3 어지기에 3 으시겠지만 3 어다놓아도 3 아버리어도 3 아놓으니 3 으라니까 3 어야하며 3 드라는 3 아두지만 3 느냐면서 3 아주었으므로 3 어보아야하겠다고 3 자고도 3 였대니까 3 아두거나 3 아달라구 3"

/-- soynlp/lemmatizer/dictionary/default/Eomi/Eomi.txt:3601-3700 -/
def eomis36 : List (Str × Nat) := rows! "ㄴ다기로 3 어두시고 3 는지만 3 었다만 3 ㄹ라는 3 래면 3 으시도록 3 어놓았다 3 아버리자는 3 느냐에서 3 아주시면서 3 았다하아 3 니만치 3 는기이 3 게하아 3 었냐면은 3 었었지 3 아하자 3 시어두 3 어지면서 3 어보내었더니 3 아야하겠다면서 3 겠대 3 을랑가 3 겠단다고 3 아지나 3 어대어야 3 았을때 3 어하지도 3 는대도 3 아지리라는 3 어내려오면서 3 에 3 어주면은 3 ㄴ가보다는 3 았대지 3 어내자는 3 아주시지 3 어대었다고 3 아가면서도 3 어가는가 3 어지고부터 3 어와 3 으시시어서 3 아대었던 3 다하아서 3 어하다 3 어내어버리고 3 어깎고 3 아넣어 3 았죠 3 아주었는지 3 는가보다 3 시든지 3 으고 3 아지고자 3 아내었는데 3 았는 3 는다면야 3 시지도 3 아지구 3 느냐구 3 아하지는 3 어들어가며 3 아버리지는 3 라하고 3 아주자고 3 어나았지만 3 는날 3 아놓았으니 3 어있다가 3 래나 3 았겠느냐 3 어버리니 3 아나가던 3 아지었듯이 3 라야만이 3 겠건만 3 어야하겠다며 3 었는가의 3 어내려가면서 3 라하았으면 3 라지먼 3 아지듯이 3 아주려다가 3 어보았고 3 었느냐를 3 어먹으면서 3 어서보다도 2 어신고 2 어치우어 2 으시면은 2 아지었는가를 2 아있으면 2 어주든 2 아다니어야 2 ㄴ것들이 2 은층을 2 ㄴ집에서 2 아있어야 2"

/-- soynlp/lemmatizer/dictionary/default/Eomi/Eomi.txt:3701-3800 -/
def eomis37 : List (Str × Nat) := rows! "을뻔 2 아내었으며 2 ㄴ다꼬 2 어물던 2 어지어버리었을 2 겄지만 2 어하더라도 2 시드니 2 아주시겠다고 2 ㄴ돈이 2 아뵙지 2 ㄴ댕기는 2 ㄴ애처럼 2 는이를 2 게밖에는 2 었으면은 2 ㄴ몫을 2 아넘어가는 2 아나가았으므로 2 ㄴ사람과 2 였다거나 2 다대며 2 시옵고 2 ㄹ래나 2 으시었겠지만 2 어있게 2 어다팔는 2 ㄴ집과 2 ㄴ가와의 2 어들어가지 2 아두게 2 듯도 2 았었지 2 어올리어서 2 은년에게서 2 았다오다 2 ㄴ것들을 2 아뵈는 2 어앉히고 2 어다니거나 2 어당기어 2 다주지는 2 았다오았는데 2 어드리어야 2 으시려는지 2 ㄴ구들과 2 아놓으니까 2 을라꼬 2 어서어도 2 았었더라도 2 아라를 2 아다주는 2 ㄴ고모댁 2 ㄴ김치 2 어대다간 2 고닳은 2 았다던데 2 아안으면서 2 아서건 2 아넘으며 2 어다보아야 2 어있는듯 2 은쪽 2 자구나 2 었다시피 2 ㄴ갑을 2 ㄴ마늘에 2 냐하면 2 ㄴ들은 2 아치어 2 라하었다구 2 어붙지 2 어잠그는 2 아당기자 2 고가았다고 2 어쓰곤 2 을데 2 앴어 2 아하느냐고 2 ㄴ겨 2 어맞추려 2 ㄴ해에도 2 ㄴ해까지 2 아드리어 2 ㄴ의자에 2 어달리는 2 ㅁ으로써 2 은해에 2 아오시었는데 2 아닿아야 2 ㄴ둥지 2 어치나 2 ㄴ약을 2 어차이는 2 ㄴ고모댁은 2 은년처럼 2 고나가아야 2 었으냐 2 은대로 2 어나오다가 2"

/-- soynlp/lemmatizer/dictionary/default/Eomi/Eomi.txt:3801-3900 -/
def eomis38 : List (Str × Nat) := rows! "여서든지 2 어붙으면서 2 러가았던 2 ㅁ서 2 는칼 2 랄까보아 2 아나서어 2 어주자니 2 려무나마 2 았대니까 2 어서든지 2 어세우는 2 어닥치고 2 든동 2 어묻어 2 아있거나 2 어쌓아 2 어치우어야 2 을지의 2 닝깨 2 ㄴ콩가루를 2 ㄴ봄 2 구선 2 았읍니다만 2 아보나 2 어놓을까 2 아붓지 2 았다오아도 2 으소서 2 아도는 2 어지었기에 2 ㄴ가한테 2 은것들이 2 ㄴ가루를 2 아보내는 2 아주시었을 2 느라고도 2 은녀석 2 사옵는지 2 ㄴ등을 2 ㄴ재의 2 어오르았다가 2 ㄴ병원으로 2 세그려 2 어보이어도 2 시겠다 2 ㄴ달도 2 으리요마는 2 어두고서라도 2 ㄴ격으로 2 ㄴ대문을 2 아오르다가 2 시고서 2 은애들이 2 ㄴ쌍이 2 었습죠 2 ㄴ폭 2 아먹으라구 2 ㄴ양을 2 고듣은 2 ㄴ시절부터 2 어다니기에는 2 라니요 2 아나서야 2 어치어 2 은달 2 어어 2 ㄴ날은 2 어버리었다 2 았었다는 2 어다니려면 2 어하시리라 2 어감고 2 냬는 2 어흐르어 2 ㄴ벌을 2 아주었더라면 2 었겠거니 2 아내겠다는 2 어들어가아야 2 은죽 2 어모이어식 2 아적고 2 아야되지 2 았댔자 2 아엎어 2 는다구는 2 어나르아 2 아야하지 2 ㄴ바위 2 아가노라면 2 아안아야 2 ㄴ길에서 2 는이에게 2 다붙이는 2 ㄴ애들처럼 2 아들어가다가 2 아오르며 2 어지어가면서 2 ㄴ해보다 2"

/-- soynlp/lemmatizer/dictionary/default/Eomi/Eomi.txt:3901-4000 -/
def eomis39 : List (Str × Nat) := rows! "ㄴ해에는 2 ㄴ녀석을 2 ㄴ교육에 2 아붓었던 2 어지나가고 2 어지넌 2 어잡아 2 었더냐가 2 다팔아 2 아내어가지고 2 어있으므로 2 어들었다 2 라를 2 ㄴ터에서 2 건적건 2 어들어오았다가 2 ㄴ군은 2 어패고 2 어올라가게 2 케 2 아먹이면 2 어퍼지자 2 어마시려고 2 아붓듯이 2 으려조차 2 아먹이어도 2 아붙을 2 다두는 2 고가더니 2 게부터 2 어다니면 2 ㄴ딱지를 2 은이를 2 았었냐고 2 ㄴ데로 2 ㄴ문제가 2 았다를 2 겄다구 2 었노라면서 2 니저러니 2 ㄴ알을 2 ㄴ공기를 2 께두 2 ㄴ터로 2 았다하는 2 았느냔 2 은층의 2 ㄴ빛깔의 2 ㄴ길은 2 어살피어 2 어를 2 는길 2 는셈치고 2 지쉬고 2 아주어야지 2 어살리어야 2 습니다하고 2 어하아도 2 ㄴ아들 2 아나가겠다고 2 런 2 ㄴ깡다구 2 으시었더라면 2 ㄴ산에서 2 구하는 2 어맞곤 2 은악마의 2 러는 2 ㄴ녀석의 2 고오았고 2 끄러 2 ㄴ푼이 2 은염산으로 2 ㄴ건지 2 아들어가던 2 았냐면 2 아계시었을 2 아보아야지 2 다대는 2 아내면서도 2 아오시던 2 아주었 2 어파아 2 어지나가듯 2 게곱게 2 는다고까지 2 였다면은 2 아처먹는 2 어지는지가 2 아야하며 2 아지는데 2 아오았는가 2 어주는데도 2 은머리의 2 어살리고 2 다더라도 2 어내느냐가 2 아주시어야지 2 어나지만 2 어먹이어주는 2"

/-- soynlp/lemmatizer/dictionary/default/Eomi/Eomi.txt:4001-4100 -/
def eomis40 : List (Str × Nat) := rows! "어제치고 2 ㄴ평 2 겠구나라는 2 였었잖아 2 아끼우면 2 어서더니 2 어올리자면 2 어물어도 2 아지느라 2 었을까말까 2 았다오더니 2 겠던데 2 는척 2 다치고 2 음직하게 2 어보시었을 2 아넘어가아 2 던대로 2 은빛과 2 어갈기던 2 아움직이는 2 아보시려면 2 다나면 2 아하나 2 고가야 2 아가려면 2 어다만 2 애라고 2 옵지 2 아헤매는 2 ㄴ이슬 2 아하거든 2 아넘기는 2 ㄴ저고리 2 은테 2 ㄴ시절은 2 아넘어가지 2 아들면서 2 은날을 2 고나가야 2 아피우고 2 어서었던 2 습니다라는 2 요는 2 십시오라고 2 아드리니까 2 아주려면 2 다놓으면 2 으시시다니 2 은대청이 2 어내려오다가 2 어얹고 2 아붓으며 2 아사대 2 어지었으리라고 2 ㄴ녀석도 2 아지면서도 2 였대드라 2 어다박은 2 은방의 2 아치우어 2 을것을 2 고나가는 2 ㄴ애가 2 ㄴ터 2 아흐르는 2 ㄴ산만 2 은층으로 2 어보이고는 2 였습니다만 2 ㄴ배 2 아먹이어서 2 습니껴 2 아두자고 2 어들이고 2 어들듯 2 어가머 2 어내라는 2 아하다 2 을래서 2 어가았으므로 2 였었어요 2 고가았던 2 어서라고 2 게하아서 2 었으면은 2 어가기에 2 ㄴ옷을 2 어놓으리라고 2 어놓으면서 2 어받아야 2 대나 2 어나르면서도 2 은가보다는 2 어보다 2 는지까지 2 듯하는 2 자부터 2 어죽이어도 2 아먹으려면 2"

/-- soynlp/lemmatizer/dictionary/default/Eomi/Eomi.txt:4101-4200 -/
def eomis41 : List (Str × Nat) := rows! "아야죠 2 겄고 2 어치우고는 2 어하았다고 2 아야만 2 시었다면서 2 어나오다 2 ㄴ가하는 2 아들더니 2 아내거나 2 어야지만 2 아두고자 2 아붙이고 2 여지니까 2 ㄴ다메 2 지않았을 2 는지부터 2 ㄴ당게 2 은물 2 었는가라는 2 어나가아서는 2 문야 2 어두어서는 2 은색 2 어먹고는 2 아버리었지 2 어터지지 2 ㄴ정 2 어서고 2 아주더니 2 아두었는데 2 시어유 2 ㄴ다더라는 2 지않아요 2 아주더라도 2 어오고도 2 어드리었는데 2 었어야만 2 아나오았지만 2 는가하면 2 시어야지 2 서든 2 어대는지 2 어넣도록 2 ㄴ가에도 2 어놓되 2 어넣어야 2 어가면서는 2 을려는 2 어나아서는 2 어나가더니 2 어지는지는 2 ㄴ대든가 2 었더냐고 2 어나오았다는 2 였는데요 2 었지요 2 아지었다가도 2 다듯이 2 았다가았다하았고 2 어오르더니 2 어오았다 2 아버리므로 2 러오아서 2 아보려다가 2 ㄴ가만 2 런가 2 어두었더니 2 어대어야만 2 아주었더면 2 을지두 2 었던가에 2 여하구 2 게들 2 라구두 2 을래도 2 을런지는 2 었건간에 2 어넣으려는 2 러니 2 였다 2 으시었으니 2 었대는 2 어놓는데 2 았는가도 2 어버리려다 2 았는고 2 오리라 2 야하는 2 아지더라도 2 지니 2 어하다가 2 겠냐며 2 였으며 2 지않아서 2 았대는 2 는데서도 2 어지지는 2 어다주어야 2 아가아버리는 2"

/-- soynlp/lemmatizer/dictionary/default/Eomi/Eomi.txt:4201-4300 -/
def eomis42 : List (Str × Nat) := rows! "겠노라며 2 아나가 2 시겠습니까 2 다남은 2 ㄴ다더라고 2 아오았기에 2 러가면 2 드라고요 2 어보내면서 2 ㄴ자리를 2 어먹었는지 2 시잔 2 아지면 2 는다하아 2 어지겠는데 2 아보겠노라고 2 어야하지 2 ㄴ공을 2 였을지도 2 었드면 2 고받는 2 시었더라면 2 었든 2 아버리 2 아오므로 2 어보고서야 2 어내리지 2 ㄴ돌 2 어하는지를 2 아보았고 2 슈 2 었나에 2 어주어두 2 라건 2 어달고 2 어먹고서 2 어놓았으며 2 어보내려는 2 여서나 2 러오았던 2 ㄴ다는데야 2 냐느니 2 아지어가던 2 어있으나 2 아대지 2 았더냐 2 는대신 2 겄단 2 지만요 2 았을까에 2 았는데요 2 았거든요 2 으니깨 2 을려 2 었기로서니 2 어주시었을 2 아있어도 2 ㄴ간 2 았길래 2 아지었지 2 아먹자고 2 어하지 2 자고나 2 아지어서야 2 어물고는 2 어듣고 2 ㄹ락 2 았었는가를 2 어나면 2 시려나 2 아다가는 2 어지는구나 2 었으니 2 려하는 2 운 2 ㄴ답니다 2 어다니었던 2 어내리곤 2 았을까만 2 ㄹ께요 2 었다손치더라도 2 아놓았다면 2 었는가가 2 아나아 2 어가지어야 2 겠냔 2 ㄴ적은 2 닌께 2 어나오았는데 2 겠대는데 2 어주어야겠다는 2 어먹는다고 2 였다니까 2 을만치 2 어주더니 2 어보았다 2 드래 2 고서나 2 았기로서니 2 어하았는데 2"

/-- soynlp/lemmatizer/dictionary/default/Eomi/Eomi.txt:4301-4400 -/
def eomis43 : List (Str × Nat) := rows! "아올리어서 2 어내지를 2 어오았거나 2 았었어 2 아죽이고 2 아먹으먼서 2 았는지까지 2 어대느라 2 겠느냐에 2 아보이어야 2 아주시었던 2 구서두 2 었으리라고도 2 어불면 2 기에나 2 어앉을 2 다던지 2 ㄴ다더라 2 고가면서 2 어주겠으니 2 는지에도 2 다니께 2 었구나라고 2 느냐하는 2 었겠지 2 어가나 2 으시지 2 어대었으나 2 ㄴ적 2 어내었다 2 었나하는 2 어가리라 2 는듯이 2 아지느냐가 2 았대도 2 시었어도 2 을리 2 았넌디 2 아다니다가 2 아보내던 2 어서었고 2 아당기는 2 어가자고 2 시었을까 2 다싶을 2 ㄴ색 2 어보아야하겠다는 2 려느냐고 2 어들는데 2 어붙이면 2 을게 2 ㄴ가하고 2 아돌고 2 어오지만 2 어버리었다고나 2 구나하는 2 고하아서 2 어오르지 2 으모 2 어보듯 2 어오르곤 2 어오았단 2 는자의 2 읍시다 2 겠던 2 은터에 2 어주든지 2 았나도 2 어내었는가를 2 아달래서 2 겄다는 2 어빠지고 2 어주었듯이 2 아내리는 2 어주겠다던 2 드래는 2 어버리든 2 았대는 2 어서아서 2 어하더니 2 ㄴ상황에 2 다면서도 2 았냐며 2 어내야만 2 게되면 2 어주다시피 2 시었는지도 2 어주려다 2 아치우며 2 고있다고 2 어보고픈 2 아보이었던 2 어지다 2 구나라고 2 아먹어서 2 ㄹ래믄 2 어가지고는 2 어버리도록 2 으시었다는 2 어먹어도 2"

/-- soynlp/lemmatizer/dictionary/default/Eomi/Eomi.txt:4401-4500 -/
def eomis44 : List (Str × Nat) := rows! "았었으며 2 고들는 2 아오니까 2 어갖게 2 어주고야 2 듯이만 2 아서야 2 어가았는지를 2 시란 2 았던지라 2 은후 2 시었느냐는 2 아서라고 2 고나아서는 2 았는데도 2 다나니까 2 게조차 2 았었으니 2 는지나 2 지만서두 2 어보자며 2 겠다라구 2 으시죠 2 ㄴ밤의 2 으라던 2 어보고서 2 어다니느라고 2 시아 2 아보고야 2 지않구 2 어넣는데 2 려만 2 을까하는 2 겠다느니로 2 ㅂ니다마는 2 아주는데도 2 아가려도 2 아올리었던 2 ㄴ빛으로 2 여서두 2 였을까 2 ㄹ까를 2 여지면서 2 어가겠다고 2 ㄴ줄을 2 ㄴ꽃 2 으니깐요 2 어있어도 2 어대는가 2 어나가거나 2 겠드라 2 아버리지나 2 냐라는 2 ㄴ데서부터 2 었는가도 2 고서만 2 였답니다 2 ㄴ봄부터 2 아먹든지 2 아다니다 2 어보느라 2 시었더라도 2 아넣으며 2 어나가았을 2 지않습니까 2 ㄴ바지를 2 겠대는 2 어받은 2 언만 2 달까 2 아야겠다 2 았겠다는 2 었응께 2 ㄴ공으로 2 겠는가고 2 ㄴ기 2 ㄴ눈으로 2 아주므로 2 았다리 2 으면요 2 겠습니까마는 2 었을런지 2 아가았는가 2 었으려니 2 어하듯 2 겠네만 2 고가겠다는 2 어쌓고 2 어두었지만 2 시었습니다만 2 ㄴ대나 2 었네만 2 어대다가는 2 은대청과 2 아두어서 2 었으므루 2 었걸랑 2 았지만도 2 대는데 2 ㄴ변은 2"

/-- soynlp/lemmatizer/dictionary/default/Eomi/Eomi.txt:4501-4600 -/
def eomis45 : List (Str × Nat) := rows! "어들어가듯이 2 닝께 2 어나오았고 2 라하아서 2 겠느냐마는 2 어오르면 2 어두었어야 2 지만서도 2 던간에 2 러가지 2 어가았단 2 었답니다 2 어지겠다는 2 래요 2 어받지 2 어대었더니 2 어나가는지 2 았었는가 2 자고는 2 어오게끔 2 어넣던 2 으려하는 2 았었다고도 2 어두고라도 2 어먹든 2 으시려고 2 어먹어야 2 어세우자 2 어안은 2 었대나 2 아보이면 2 시면요 2 었을텐데 2 어지었을지 2 았어도 2 어주시었다는 2 아가느냐 2 려면은 2 으면서만 2 고말고 2 었겠다고 2 다는데서 2 재는 2 다믄 2 ㄴ것에 2 어지어야하는 2 어하았다 2 시자는 2 만 2 어박은 2 어놓으니까 2 아야하겠으니 2 어들은 2 아들어오는 2 어야하겠는데 2 아대면 2 으시었으리라 2 어나가았다고 2 어주었는지 2 ㄴ다를 2 느냐라는 2 ㄹ려구요 2 어내리던 2 어오았으니 2 지라고 2 어보고도 2 어하시지 2 어나아야 2 는체 2 ㄴ다와 2 러가고는 2 어드리며 2 어놓으면서도 2 어붓고 2 어지더래도 2 였다고 2 았을까 2 고하는 2 었어두 2 어올리었고 2 라느니보다도 2 시리라고 2 었는가 2 아지리라 2 러오지 2 대두 2 지지가 2 어올리듯이 2 아먹었다는 2 어보아야만 2 어안으며 2 아야되는 2 어두던 2 ㄴ잎과 2 아두었다 2 였다느니 2 어넣으면 2 어두도록 2 아버리었는지의 2 어넘기어 2"

/-- soynlp/lemmatizer/dictionary/default/Eomi/Eomi.txt:4601-4700 -/
def eomis46 : List (Str × Nat) := rows! "게의 2 어대었는지 2 도록만 2 은지조차 2 냐와 2 아의 2 을지조차 2 었다면야 2 게되었다고 2 어업고는 2 았다손 2 어드리러 2 어보내면 2 어를 2 어서면 2 었겠느냐 2 아놓았다가 2 으시시어요 2 었노라던 2 었거나 2 아두었더니 2 었어도 2 어놓자는 2 ㄴ정이 2 았다하며 2 였나를 2 덜 2 어올라오아서 2 어가느라 2 어쌓니까 2 으냐로 2 아대다가 2 랬자 2 어나가았다는 2 어내지만 2 지라도 2 어주지만 2 어두어서 2 고나오는 2 느냐에도 2 다든지하아 2 을라믄 2 라니깨 2 어지어나가는 2 지말라고 2 어오았다가 2 어내었으면서도 2 아주었으며 2 그로 2 읍니다 2 아내었으나 2 겠읍니다만 2 어올라가고 2 었다니까 2 어나르던 2 는대요 2 구서야 2 것다 2 은데요 2 어오았는가 2 아놓으려고 2 다라구 2 어지든지 2 여서든 2 어대길래 2 시어갖고 2 아보내고 2 시듯 2 어서든 2 고프아서 2 아지느냐에 2 는가에서 2 아지지나 2 아보잔 2 어다가는 2 어내랴 2 어가자면 2 어주려니 2 자든지 2 는가만 2 어지었더라면 2 었은께 2 어나도록 2 어드리지도 2 구를 2 어제끼는 2 아들고서 2 아버리던 2 랴면 2 랑께 2 었던것이 2 었었으니 2 어하시던 2 겠소만 2 사오나 2 였다는데 2 였던 2 ㄴ소리 2 습니다가 2 옵는 2"

/-- soynlp/lemmatizer/dictionary/default/Eomi/Eomi.txt:4701-4800 -/
def eomis47 : List (Str × Nat) := rows! "어하았다면 2 어가듯이 2 어나가 2 어먹다 2 어올리다가 2 아주는가 2 아보아야겠다고 2 었으니만큼 2 어가더니 2 였었냐 2 어던지지 2 아보이어서 2 어내자면 2 아넘기어 2 았었잖아 2 았었느냐고 2 아오았는지에 2 으시어야지 2 아서요 2 으라거나 2 다더니만 2 어죽이는 2 아돌리며 2 ㄴ틈이 2 어보먼 2 어하도록 2 어나오면 2 어보았나 2 련만도 2 아보더니 2 았는데두 2 냐는데 2 ㄴ댄다 2 어바르고 2 거나에 2 아있다가 2 ㄴ다기로서니 2 어두곤 2 든지가 2 올 2 ㄴ다고까지는 2 였는지를 2 어가아서도 2 아지어버리고 2 겠지만은 2 ㄴ짓을 2 아대는데 2 구나를 2 어오지않구 2 았드니 2 았다네 2 어사는 2 겠거니와 2 어들듯이 2 자고만 2 아주라는 2 어보았는지 2 어주신 2 다대어 2 어버리었으니까 2 어들었다가 2 어쓰어야 2 아지었다고도 2 여서가 2 어버리었는가 2 어놓아야지 2 라카면 2 어다보니 2 으먼서 2 는지조차도 2 다더라 2 으시었는 2 은뒤 2 었었더라면 2 어주려던 2 어주자고 2 다고만은 2 ㄴ내가 2 였대는 2 ㄴ적도 2 넌다넌 2 라거니 2 어던지어 2 겠지라고 2 아지겠지 2 겄지 2 였냐면은 2 어야하겠구나 2 어오지도 2 았네요 2 더냔 2 겠는데도 2 어지었어요 2 였던데 2 어나가았는데 2 어들므로 2 ㄴ다던지 2 어보내며 2 ㄹ래다가 2 아오았는지도 2"

/-- soynlp/lemmatizer/dictionary/default/Eomi/Eomi.txt:4801-4900 -/
def eomis48 : List (Str × Nat) := rows! "아하도록 2 러만 2 어넘기는 2 넌단 2 래보아야 2 어서야만 2 아달라니까 2 아올리었다는 2 어놓듯 2 아대더니 2 아나가자면 2 냐고요 2 ㄴ터는 2 았겠지만 2 어주려면 2 아가았으나 2 어넣듯이 2 아오더라도 2 었느냔 2 고시나 2 인 2 어내겠다고 2 어지었다고는 2 ㄴ지만 2 어준 2 아먹거나 2 어들었으나 2 아드리어야 2 아다놓고 2 어입을 2 ㄴ다음 2 으냐에 2 세요 2 았건마는 2 었다든지 2 어매어 2 었다하며 2 어올리면 2 아나가려고 2 았으먼 2 어묵은 2 아드리겠다고 2 어주 2 다주려고 2 아빠지어서 2 아내는데 2 나에 2 아대었더니 2 았으니깨 2 아가지도 2 ㄹ까도 2 아쌓지 2 았넌지 2 시었던지 2 아가았으니 2 았겠구나 2 어두었다는 2 어있으면서 2 어내어서는 2 건만은 2 어버리든가 2 면서버텀 2 다길래 2 었대요 2 어가았으나 2 으시시니까 2 어대고는 2 아들었을 2 어오았으니까 2 ㄴ놈 2 다울다 2 ㄴ들에 2 어죽이려고 2 은데두 2 어가는지를 2 을까고 2 려하자 2 아두었다고 2 아오았다면 2 았잖아요 2 어버리는데 2 어오고는 2 지않았던 2 어먹도록 2 구프어 2 았다는데도 2 너라구 2 어넘기다가 2 ㄴ바람에 2 으시시도록 2 어오르다가 2 아보시지 2 그덩 2 겄는디 2 어보게도 2 아가니까 2 어드리겠다고 2 아놓으라고 2 어버리니까 2 아버리지만 2"

/-- soynlp/lemmatizer/dictionary/default/Eomi/Eomi.txt:4901-5000 -/
def eomis49 : List (Str × Nat) := rows! "ㄴ께는 2 고가던 2 오면 2 겠거늘 2 다고조차 2 아지었다며 2 어서라도 2 다기로서니 2 었다는데도 2 어오는데도 2 어지지나 2 ㄴ집 2 고가지 2 았다니까 2 어죽어 2 았는데두 2 으랴고 2 아오시어서 2 구가 2 어밀고 2 ㄴ밤중 2 어지매 2 옵니다만 2 다나는 2 어주시어요 2 지않느냐 2 겄지먼 2 았을까보아 2 다버리는 2 아대곤 2 어오르는가 2 었음 2 았어두 2 더라고도 2 아쌓아서 2 을까만 2 는듸 2 래잖아 2 어죽이어야 2 고보다는 2 어담을 2 아보았단 2 아나가다가 2 고지고 2 아놓았을 2 아지지를 2 어지지두 2 어젖히어 2 았느냐로 2 았습니까 2 아죽지 2 니끼니 2 었대도 2 아보이었고 2 아내려면 2 ㄴ눈에 2 서는 2 아하았다는 2 었으니께 2 얄 2 아지었지마는 2 아대었고 2 ㄴ지조차도 2 어들지는 2 았던가에 2 ㄴ데서도 2 아보구 2 아올라오아 2 거니로 2 시었소 2 은것 2 어두었고 2 아지자는 2 다버리어도 2 ㄴ내 2 어보려는데 2 었으먼 2 어지었다며 2 어다놓는 2 아오지는 2 능가 2 어버리었을지도 2 ㄴ지넌 2 아내다 2 는대서야 2 아쥐는 2 다주겠다고 2 시다구 2 어주었더라면 2 겠다든가 2 어놓자고 2 었으랴만 2 나가 2 어담은 2 던데서 2 아오아서는 2 었자 2 겠는가에 2 는다던 2 아주다니 2"

/-- soynlp/lemmatizer/dictionary/default/Eomi/Eomi.txt:5001-5100 -/
def eomis50 : List (Str × Nat) := rows! "다나니 2 아하므로 2 아대는데도 2 어지면서부터 2 어담지 2 았었는데도 2 아보자면 2 았다오았다는 2 고살는 2 아주어보았자 2 다주거나 2 어오았다고는 2 어내니까 2 였겠어 2 었던지는 2 어버리므로 2 냐니까 2 것다마는 2 어오았듯이 2 었을까가 2 냬 2 어오려는 2 어묵고 2 아내고자 2 ㄴ지서 2 는게 2 어있었다는 2 았습니다만은 2 어가느냐에 2 자든가 2 었느냐보다 2 ㄴ이는 2 아치고 2 었다뿐 2 아갖구 2 어오았으므로 2 아놓겠다고 2 어지었나 2 았달 2 어놓고서 2 았어두 2 아들자 2 도록은 2 어야겠다 2 어올라오아 2 시구서 2 으리라고도 2 아올리면 2 어빠지어서 2 어두겠다 2 어늘 2 아나곤 2 겠다는데도 2 어보나 2 어가곤 2 어보아야지 2 으라는데 2 겠더라는 2 았다넌 2 어내려가다 2 어먹듯이 2 고서까지 2 ㄴ대거나 2 었겠는지 2 았다는것이 2 았답니다 2 는이 2 다놓아도 2 겠구요 2 어죽도록 1 ㄴ가을 1 아부치면서 1 여야만이 1 아지었다손 1 았다면야 1 려고요 1 었지만염소우리 1 어나가니 1 어듣지 1 시겠죠 1 ㄴ대화모임을 1 ㄴ개와 1 어앉고부터 1 여하는데 1 어주었는가 1 ㄴ띠를 1 아먹었을 1 ㄹ는지 1 냐구요 1 어다대던 1 었는가에서 1 아넘어가는구나 1 게만도 1 다가만 1 니다리가 1 는톱이 1 라깨 1 어오았을지도 1 시었습니까 1 으면이 1"

/-- soynlp/lemmatizer/dictionary/default/Eomi/Eomi.txt:5101-5200 -/
def eomis51 : List (Str × Nat) := rows! "아야하겠다든가 1 아먹지도 1 였길래 1 ㄴ나라의 1 어꼬지르자 1 어오르지만 1 ㄴ달여가 1 았나요 1 였어야지 1 어박히는 1 ㄴ다하았자 1 아뜯으려 1 아달라지 1 어야하겠지 1 여서요 1 시든 1 어쏟을 1 ㄴ손자에 1 어패려다가 1 아보아야하겠단 1 어건너어다가 1 아오라시며 1 ㄴ경기에서 1 었었죠 1 는직립동물의 1 온 1 았는진 1 아오았나 1 아붙었다면 1 어주겠지만 1 ㄴ훗날 1 어들어오아서 1 아지어가는데 1 어가더라는 1 었대니깐 1 었는지보다는 1 어주었단 1 아버리듯이 1 어야겠는데 1 ㄴ공간은 1 고꽃목들 1 잖게 1 어라구 1 어올리곤 1 아보고싶은 1 았을까도 1 어바치고 1 으다면야 1 었너냔 1 어살는지를 1 니도 1 고있듯 1 니깐요 1 어지죠 1 였다시피 1 아내느라 1 ㄴ고모네 1 아버리다면 1 아서조차도 1 고늘어지어 1 거니는 1 어나오고는 1 어나가기에 1 는대서가 1 었노라니까 1 겠노라고만 1 습니다와 1 ㄴ외투와 1 아주겠느냐고 1 ㄴ바위에서 1 아올리라 1 아붙이면서 1 아먹이었으나 1 아서겠지만 1 어놓고서야 1 았나부터 1 ㄴ꼬리 1 아붓는다면 1 어서요라고 1 겠는가말는 1 어지어가았다고 1 어지느냐가 1 어부시어서 1 ㄴ모자 1 아대니까 1 나하았더니 1 아보아야겠다는 1 은염산에 1 었는지홀연히 1 어펜대 1 ㄴ다카아놓고 1 았잖소 1 아놓았고 1 을란가는 1 어가리라는 1 겠다도 1 지못하지만 1 아내아야하겠다고 1 아주다보면 1 아다니느라고 1"

/-- soynlp/lemmatizer/dictionary/default/Eomi/Eomi.txt:5201-5300 -/
def eomis52 : List (Str × Nat) := rows! "다두고 1 어주중에 1 어내리라고 1 어야겠습니다만 1 라는듯 1 러가아서는 1 았던데에다 1 어넘어서게 1 아내시었으니 1 니만도 1 은장 1 을래면 1 ㄴ일 1 어버리었는디 1 아오려는 1 ㄴ대로만 1 어잡아야만 1 는다면이나 1 ㄴ배에 1 아버리니 1 을락말락 1 겠니마는 1 아드리려 1 을까부터 1 어나았는가 1 아부치어서는 1 아쌓아 1 았다가았다하다 1 낀데 1 어버리었던가를 1 어요하고 1 어나오았지만 1 ㄴ데나는 1 아야하던 1 아다주며 1 었다끄었다 1 어두시지 1 라하았더니 1 아놓고자 1 았던것과는 1 마던 1 아먹냐고 1 어쥐더니만 1 아지시었다는 1 아마시었다가 1 아들자마자 1 어들다가도 1 어보았다면 1 아보이던지 1 아보이자 1 시었는지나 1 어두니 1 은돌을 1 아보냐고 1 아야하나 1 어먹으려면 1 어이미 1 ㄴ가라 1 아도보아도 1 며올을 1 었다마는 1 아늘이어서 1 어치고 1 아나가았다는 1 어도적멸이 1 든걸 1 ㄴ아들의 1 러다니고 1 아늘리는 1 어가지구서 1 아가지만 1 어보내었고 1 겠는가라고 1 어주었냐고 1 아내되 1 아로도 1 어지었는 1 았다드라 1 더라느니 1 어지리라고는 1 ㄴ머리 1 으시든지 1 으라더니 1 을까라는 1 었지마는 1 어먹었는데 1 어먹었는가를 1 어야하는지 1 ㄴ집에서는 1 았을텐데 1 어넣으라는 1 겠구나고 1 어올라가자 1 았었는지는 1 고짜는 1 아들이고 1 ㅅ거든 1 아드리었다면 1 아하시고 1 었었었는데 1"

/-- soynlp/lemmatizer/dictionary/default/Eomi/Eomi.txt:5301-5400 -/
def eomis53 : List (Str × Nat) := rows! "는다욕설과 1 았었더라는 1 어물려다가 1 어다니란 1 아서라도 1 서라두 1 ㄴ교육을 1 여라고 1 다베리 1 어씌우니 1 ㄴ병도 1 다는듯 1 어내려오려면 1 ㄴ산으로 1 는다는디 1 겠느냐하고 1 ㄴ고모를 1 ㄴ정에 1 튼 1 어모으려는 1 런고 1 아먹히면서도 1 지에 1 라하시던 1 는군요 1 어지었듯 1 ㄴ하늘로 1 러가았는데 1 나는 1 은얼굴들을 1 어나가았던그들은 1 어다주면서 1 아닿고 1 고싶어하았지만 1 었겠는가마는 1 어오았 1 ㄴ무 1 아주시었는데 1 으라지 1 아붓던 1 아지면서 1 어들어가아보면 1 았다가았다하았는지 1 것는데 1 어서요 1 어나오는지 1 으랬다고 1 아보시어도 1 어드리었던 1 어타는 1 다참다 1 아놓았으므로 1 어쌓았는 1 아지어오았으므로 1 어쥐어 1 는까 1 라믄 1 었었지 1 시므로 1 ㄴ께야 1 ㄴ대느니 1 아넘어가았던 1 어쓰게끔 1 아하시었던 1 어타게 1 여지도록 1 ㄴ마디 1 시겠지 1 아안게 1 어두기에 1 았었다며 1 ㄹ라다가두 1 니다마는 1 다놓곤 1 ㄴ눈처럼 1 는수 1 았다면서 1 고라니 1 어주더라도 1 아가았다며 1 ㄴ자들 1 어드리겠으며 1 ㄴ다면서요 1 어내었단 1 어지어있고 1 ㄴ중에도 1 다서다를 1 겠습니까만은 1 으시시기에 1 구자구 1 라카지 1 아오시믄 1 아서까지 1 었든데 1 시랴고 1 어덮이어 1 겠다믄서 1 였다든가 1 ㄴ간폭의 1 어대듯이 1"

/-- soynlp/lemmatizer/dictionary/default/Eomi/Eomi.txt:5401-5500 -/
def eomis54 : List (Str × Nat) := rows! "어삐라 1 었냐며 1 아나서겠다는 1 ㄴ수염처럼 1 았다가았다하는디 1 아먹으니 1 을제 1 어넘기던 1 았다느니하며 1 뇨 1 아올리어보고 1 아놓았다 1 았자더라 1 었냐에 1 어다는 1 어불먼 1 은녀석의 1 아오시었고 1 ㄴ무덤의 1 어주다가는 1 아들어가 1 라냐 1 노이다 1 아보았느냐는 1 아먹으려는 1 었었넌디 1 어다니어도 1 아서도처음에는 1 아치다 1 시나니 1 ㄴ잔치를 1 았다가았다하아 1 어지되 1 어퍼지었고 1 어보자구 1 아입고 1 어들어가곤 1 자마자가 1 았는듸 1 어달지 1 고평지에서는 1 ㄴ대는데 1 ㄴ장방형채가 1 어놓으먼 1 ㄴ해부터 1 는다손 1 ㄴ가이제 1 ㄴ면모에 1 ㄴ바위얼굴에 1 아야하겠죠 1 ㄹ뿐더러 1 려느냐는 1 ㄹ게가 1 어다니었고 1 아달라고만 1 아들어서자 1 는다마는 1 지않자 1 어치우곤 1 어내자고 1 다먹는다는 1 어주시었더라면 1 다가과녁 1 아홀로 1 자노라니 1 였는냐의 1 어나가아다가 1 아가지고서는 1 련마는 1 시네 1 ㄴ국수 1 어지고자 1 어뵈던 1 겠는가만 1 았걸래 1 아놓았지만 1 아먹는단 1 어제끼더니 1 어다박았다는 1 아넘어오지 1 았구먼 1 어대느냐 1 어자빠지어 1 ㄴ공기로 1 ㅆ대니까 1 ㄴ가하아 1 어가았느냐를 1 어내다니 1 느라니 1 다그렇지 1 어주었던들 1 ㄴ뺨 1 아지었는지를 1 어고 1 어올라가았다가 1 어입어 1 어가았는지는 1 고부터의 1 ㄴ볼기근 1 은구들은 1"

/-- soynlp/lemmatizer/dictionary/default/Eomi/Eomi.txt:5501-5600 -/
def eomis55 : List (Str × Nat) := rows! "다시피하는 1 을빗꽃살창호를 1 았다리가았다리하다가 1 는작은 1 아넘어가았을 1 으시나 1 게나가 1 었노 1 어막히고 1 어달라고만 1 였다고는 1 았었으면 1 아주는데야 1 은층에서 1 ㄹ까라고 1 아보세라는 1 ㄴ다텅 1 시는데요 1 아누르고 1 아대는지 1 어지었다면은 1 어터지어서는 1 다시피하았다는 1 아들어가고는 1 아나서었던 1 어두더라도 1 라시며 1 면설레어 1 ㄴ활동을 1 으시시라고 1 어주시니 1 았습니다는 1 어다두면 1 아버리든가 1 겠어도 1 으시었을진대 1 어놓았지 1 어보았다가 1 어보아라 1 어가려니까 1 아보았는지를 1 듯말듯 1 아주는지와 1 아보이고는 1 어쓰라는 1 어가므로 1 게까지도 1 고쌔다고 1 어씌우지 1 어보더라도 1 아넣던 1 어놓았느냐고 1 아오았 1 아버리어서만은 1 어내리라고는 1 ㄴ다카면서 1 어남넌다구 1 라하았지 1 어보아야겠다고 1 어들어가거나 1 데만 1 네그러니까 1 어치우던 1 아내리게 1 ㄴ거나 1 라로 1 아지거니와 1 아챙기는 1 아오넌 1 ㄴ양 1 을까만을 1 는그 1 고물 1 어지어라고 1 아재끼고 1 았으면야 1 ㄴ등고개와 1 어뿟단 1 은터 1 다카던데 1 어잡아도 1 라시지 1 으락 1 아헤매던 1 어닮은 1 아불었다는 1 은색으로 1 게하려는 1 어다니었는데 1 ㄴ자유를 1 어먹었던 1 아하리라 1 어패지는 1 는톱에 1 어박았는지 1 ㄴ방이 1 라하았으나 1 어쌓면 1 리다 1 라는의심도 1"

/-- soynlp/lemmatizer/dictionary/default/Eomi/Eomi.txt:5601-5700 -/
def eomis56 : List (Str × Nat) := rows! "은가보던데 1 려들면 1 어지었으되 1 다구는 1 ㄴ산으로부터 1 어대는데도 1 아달라든가 1 ㄴ월급 1 어보느라고 1 아가시면 1 ㄴ배와는 1 어야겄다고 1 으니끼니 1 았지요 1 아붓었고 1 을거 1 ㄴ교육의 1 아지매 1 아넘기려 1 는다녀 1 은층들은 1 ㄴ시절과 1 ㄴ법당과 1 어가듯이라고 1 구부터는 1 ㄴ가마저 1 시어지는 1 어맞고도 1 ㄴ것채로는 1 리라든가 1 어내려가며 1 아주라하았는가고 1 았다는말은 1 았으니까요 1 어놓더니 1 고치는 1 자넌 1 어박았지만 1 은데에다가 1 았구만 1 시구려 1 어지건 1 데요 1 옵더니 1 어치우지 1 ㄴ의자로 1 습죠니까 1 어지라 1 어퍼지며 1 어두지를 1 아있지않아 1 였는가를 1 았지만서도 1 ㄴ소매의 1 았냐고 1 어내려가았으나 1 아대게 1 다하지를 1 아붙고 1 아들면 1 아올라가아서 1 려구요 1 아보았나 1 야제 1 어들어가다가 1 시느냐 1 어보겠단 1 아서시집가던 1 ㄴ처녀에게 1 겠습니까가 1 어비추지 1 은머리가 1 았는가보다 1 ㄴ가에까지 1 아주라며 1 였으니까요 1 어내었는가에 1 는교 1 어다놓아 1 어내리었으면 1 아야하겠구나 1 다팔라고 1 ㄴ눈발처럼 1 다가묵은 1 ㄴ배에서는 1 였다는 1 ㄴ병아리 1 은형을 1 나어렵게 1 나가나 1 어지나는 1 아내려오다가 1 다치더라도 1 고나오았던 1 어내었더니 1 으시시느냐고 1 어냐 1 란다는 1 어오았던가에 1 아신도록 1"

/-- soynlp/lemmatizer/dictionary/default/Eomi/Eomi.txt:5701-5800 -/
def eomis57 : List (Str × Nat) := rows! "어당기듯이 1 어배우었거나 1 시네요 1 다고하고 1 어내려가고 1 나저러나 1 았었기에 1 잘것 1 ㄴ다경쟁업체들의 1 고오았다고 1 아버리더라고 1 어나오지는 1 려하지도 1 는가보다는 1 았았어도 1 아나되 1 아잡은 1 었으나내 1 어먹고서도 1 아다니기에는 1 어맞았든 1 고논두렁 1 아하고 1 어놓고자 1 어보시라고 1 ㄴ구성이 1 아하았으나 1 아보고도 1 아지었다가는 1 였드라 1 어업어다 1 아있을지도 1 ㄴ재단 1 ㄴ꽃처럼 1 ㅂ니다만은 1 라더만 1 어섬기면 1 아가자면 1 을것에 1 으려도 1 다보니께 1 어만가던 1 어주는지는 1 어나오도록 1 었담시롱 1 어두시지도 1 어있곤 1 은오징어 1 ㄹ까에 1 면을 1 아마지않는 1 었구나라는 1 았는거라 1 은악마 1 었겠고 1 다달다 1 ㄴ솔은 1 으시시자 1 는지까지를 1 어보았으니 1 어지어버리지만 1 ㄹ라나 1 어달라던데 1 어버리시 1 ㄴ밥과 1 아커지는 1 어나가았다 1 어오르았지만 1 어퍼지던 1 았소 1 니실컷 1 아붓었나 1 어싣고 1 ㄴ여자는 1 ㄴ다듣지 1 은척을 1 았었나 1 어놓았느냐에 1 았었다가도 1 었는 1 어지냐고 1 은이의 1 어내든 1 었는데도 1 아주었는지도 1 ㄴ형부는 1 였어요 1 ㄴ어매가 1 라고조차도 1 아버리자고 1 아보이었으며 1 어두시었던 1 오소서 1 어내자니 1 여가 1 ㄴ층쌓기기단 1 어다니다나면 1 았다메 1 시었으면서 1 아보아야하겠노라고 1"

/-- soynlp/lemmatizer/dictionary/default/Eomi/Eomi.txt:5801-5900 -/
def eomis58 : List (Str × Nat) := rows! "지말오 1 어다주었다는 1 려는것이 1 겠는가하는 1 든가를 1 아주어서야 1 을겨 1 아오시었으니 1 지않아하는 1 이까네 1 다하니 1 시겄다면 1 아보았거나 1 며새롬이가 1 아오지도 1 아나오자 1 아내시고 1 ㄴ체로 1 는대거나 1 ㄹ지어다 1 어주었구나 1 아서버리는 1 어젖히면서 1 시었느냐며 1 어어깨 1 어주암호의 1 애서는 1 리라칼 1 으시시어 1 ㄴ데저 1 어바르았던 1 은가라는 1 어대는지는 1 ㄴ닢을 1 어있는지의 1 올시다가 1 ㄴ들에게 1 시었다지 1 아오았다며 1 더군 1 어놓았다니까 1 어지었는가를 1 었구나하는 1 어주다나면 1 겠대요 1 은옷을 1 어내었다면 1 ㄴ이도 1 면배우와 1 어버리었어도 1 어치우려는 1 ㄴ대던가 1 더라만 1 어올리어지는 1 세요사랑의 1 을것 1 아붓어놓은 1 ㄴ다나를 1 어가려던 1 는회사는 1 아주시었지만 1 였다메 1 았다오니 1 아다니었다 1 어내는지도 1 ㄴ바위까지 1 어내라 1 ㄴ빚을 1 아지었다든가 1 으시고도 1 다야 1 아서라고 1 아내겠냐며 1 어붙이어놓은 1 어쓰면 1 아먹어두 1 어주고만 1 고받곤 1 어달라고는 1 아올리라고 1 아서보지 1 아놓었던 1 ㄴ산에 1 ㄴ다냐를 1 아주마던 1 아들어가니 1 았으믄 1 어쓰려야 1 면써 1 ㄴ손자 1 나다르랴 1 ㄴ놈에게 1 아내아도 1 은띠를 1 아부치고 1 었냔 1 ㄴ녀석에게까지 1 어달아서 1 자하시면 1 어나가면서도 1"

/-- soynlp/lemmatizer/dictionary/default/Eomi/Eomi.txt:5901-6000 -/
def eomis59 : List (Str × Nat) := rows! "아지었었지마는 1 었던가도 1 다하시네 1 어내려가아서 1 어다놓았을 1 ㄴ블라우스를 1 은각시가 1 오지 1 아지는데에다가 1 어불라고 1 였겠죠 1 ㄴ엄마의 1 ㄹ는지도 1 었던데에다 1 었었는데도 1 어가다가도 1 라더냐는 1 아들는데 1 어살지만 1 어주겠느냐는 1 었사오니 1 어먹으려는 1 아야겠구나 1 어달 1 아하시었지만 1 어대었으면 1 어주면서도 1 아라입을 1 련다고 1 ㄴ배추에 1 었다이제 1 어감으면서 1 ㄴ다더라도 1 아들어가았을 1 어살았다면 1 아내리었는데 1 아가지곤 1 어가니까 1 고싸는 1 었다기로서니 1 아지나마 1 어오다시피 1 어지었다가는 1 아바르자 1 ㄴ아침에 1 아보자커니 1 어서었을 1 어주느냐가 1 ㄴ것만을 1 ㄴ누리에 1 어하는가를 1 어지었나는 1 아보시라는 1 아지더라는 1 아먹자면 1 어눕어 1 리놓으머 1 아지고부터 1 어오르는데 1 어빠지었는데 1 아지시는 1 단다를 1 으려들는데 1 어주는가 1 아서라고도 1 ㄴ눈동자에 1 아오았어도 1 ㄴ표도 1 구라도 1 어퍼지어 1 고넓은 1 려하았을 1 았었을까 1 겠소이다 1 ㄴ가루들이 1 어지잖아 1 아지었다고는 1 시겠던 1 ㄴ잔치는 1 아먹으려던 1 어버리었나를 1 어넣으려 1 ㄴ속도로 1 았겠죠 1 은빛을 1 라건만 1 ㄴ집이 1 어맡기게 1 ㄴ건천의 1 아쥐고서 1 ㄴ얼굴조차 1 ㄴ점은 1 다넣었지만 1 아하드라고 1 어패고는 1 은발길로 1 시었으니깐 1 ㄴ정치모임 1 자하시던 1 어주옵시고 1"

/-- soynlp/lemmatizer/dictionary/default/Eomi/Eomi.txt:6001-6100 -/
def eomis60 : List (Str × Nat) := rows! "ㄴ영향 1 어하더란 1 아세우어지어 1 시니께 1 ㄴ길로만 1 아주며는 1 어내려오자 1 너냐 1 겠읍니까마는 1 래든 1 은부인을 1 아가라 1 았다가았다만 1 ㄴ접시들을 1 ㄴ대더라 1 ㄴ초장에 1 는가에까지 1 러가던 1 아닿았지만 1 아보았어야 1 러나가았다가 1 어주넌 1 어주시듯 1 란다면 1 아대었으나 1 았다며 1 러오아도 1 어나가았어야 1 고오고 1 어주고서야 1 아가시었으니 1 고드리는 1 았어야지 1 었다놓곤 1 은북을 1 나나는 1 거나하아 1 ㄴ다지마는 1 은밥처럼 1 아지었다지만 1 였겠지만 1 어주시겠다니 1 아두었지만 1 오고 1 ㄴ것밖에 1 어문들어지는 1 ㄴ깡통을 1 아주먼 1 지않아하니까 1 어들든지 1 어다주면 1 었을뿐 1 ㄴ병의 1 었다면서요 1 ㄴ갓과 1 라구서 1 으라든가 1 어먹었다 1 어버리어야하겠다고 1 아야되느냐의 1 아내리다가 1 겠다지만 1 아나오다가 1 어백거이 1 ㄴ턱은 1 었다메 1 네그려라고 1 다듣다 1 아주시었듯이 1 어담아야 1 아입어야 1 ㄴ바가 1 러다니라구 1 어박는다라는 1 아야하도록 1 든아니면 1 아받은 1 는가시피 1 대메 1 였었는지도 1 ㄴ터널 1 지않게은데 1 어삼키면서 1 ㄴ책을 1 아주고싶은 1 구로 1 았대나 1 으려하지 1 디낡은 1 아주쇼 1 아보게만 1 ㅁ을 1 어내든지 1 고있으며 1 았겄는가마는 1 것내만 1 ㅂ니다라고 1 었을만큼 1 어붙이었을 1 아읽고 1"

/-- soynlp/lemmatizer/dictionary/default/Eomi/Eomi.txt:6101-6200 -/
def eomis61 : List (Str × Nat) := rows! "시다가도 1 ㄴ사랑채와 1 어하았으며 1 며경찰관 1 았다오았고 1 ㄴ일을 1 지않으나 1 아야하지만 1 고다니며 1 아보겠다던 1 은거 1 었었죠 1 겠다는데에 1 았음 1 어들어오는지 1 이까내 1 으려고는 1 어바치지 1 아쌓는 1 었나피에르 1 어하았듯이 1 ㄴ건도 1 어담더라도 1 어올라가았던 1 잔다고 1 나말나의 1 어지나가아 1 은방에서 1 아내려가아 1 려하면 1 아지자고 1 어들어오아도 1 아잡을 1 었다하는 1 어두어야만 1 어하시었지만 1 어보내던 1 아두구 1 ㄴ거리에서도 1 듯하았을 1 어치며 1 을거리들이 1 어나가겠다는 1 시냔 1 을런지도 1 겠는가의 1 라고만도 1 아서었던 1 아먹으라는 1 어나곤 1 아두려 1 ㄹ려니 1 어넘기었는데 1 으므로안개 1 지않었으먼 1 ㄴ만큼은 1 어는 1 라는이유로 1 어씌어 1 아나가아도 1 어두려면 1 고나자 1 라하았더라 1 는비용이 1 노라던 1 노란 1 은구들의 1 어보았어도 1 ㄴ부분이 1 어나았는 1 아대었는데 1 아지시어서 1 어짓구 1 어올리지 1 았간디 1 아지은 1 어오자면 1 아오아하거나 1 어일어나아 1 었다에 1 었드라 1 겠느냐면서도 1 ㄴ다더니만 1 아오겠다며 1 었네라고 1 가꼬 1 시느라구 1 아살리러 1 어지어오았다고 1 아끼우고 1 은느낌의 1 게도시리 1 아버리든지 1 어들자마자 1 던중 1 고나가아서 1 아보려고도 1 겠다는것이 1 치만 1 어주더라고 1"

/-- soynlp/lemmatizer/dictionary/default/Eomi/Eomi.txt:6201-6300 -/
def eomis62 : List (Str × Nat) := rows! "어하았던가를 1 래더라 1 어들여오고 1 어올라가야 1 은문으로 1 ㄹ려고는 1 았다거니 1 아먹겠다는 1 어하겠다 1 았읍니다 1 은자형으로서 1 어두다시피 1 라카나 1 았던지 1 ㄴ아이에게는 1 시었으리라는 1 어면서 1 라니께네 1 디높은 1 어돌며 1 시더란 1 ㄴ것으로는 1 어불었다고 1 어내었는지도 1 ㄴ아이에 1 ㄴ을 1 어오다보니 1 아서었을 1 어버리리라곤 1 었기로 1 ㄴ구름장들이 1 어라저러어라 1 으이 1 어가지고서는 1 어죽이어 1 ㄴ반사가 1 ㄴ의자를 1 시군 1 는디야 1 였다면서 1 다저것이야말로 1 시나요 1 구도 1 어주먼 1 어지어가아도 1 어살려 1 ㄴ회칙은 1 다고하아서 1 었더니만 1 어세우며 1 아주는가가 1 어가아보면 1 은해의 1 어들어가고는 1 시어가지구서 1 아붓었는데 1 어올리듯 1 겠자면서 1 어야죠 1 라아하는 1 았다가았다하면 1 은층은 1 어참으며 1 고넘어지느냐는 1 어주어야겠다고 1 나하는 1 다주러 1 어두어도 1 은을 1 어들구두 1 었던만큼 1 까도 1 아놓다 1 었다하면 1 ㄴ칸에 1 니깨로 1 았었다던 1 어디는 1 다주라고 1 아오르더니 1 어하던지 1 으래는 1 였지 1 는상태에서 1 지않다 1 아내고서라도 1 았다라고 1 아하드니 1 았을지 1 ㄴ녘의 1 아놓았어야 1 어가지는 1 라하시는 1 어지어가나 1 아붓겠다고 1 아주겠느냐 1 다하았던 1 고들어오았다는 1 러가아도 1 는한편 1"

/-- soynlp/lemmatizer/dictionary/default/Eomi/Eomi.txt:6301-6400 -/
def eomis63 : List (Str × Nat) := rows! "아오시었는지 1 어갈기었다는 1 랴문 1 았는강 1 냐부터 1 어드리었으니 1 은길을 1 다고개 1 는가란 1 겄는가마는 1 아죽었다 1 어오지를 1 으니까네 1 어달랄 1 어보자면은 1 어내려가는가 1 고넘어지는 1 어파며 1 다주었을 1 아내다가 1 ㅂ쇼라든가 1 아잡으라고 1 였으니까는 1 아나가라는 1 아주었다면서 1 았더군 1 아오려던 1 어먹히었을 1 어나가았는가를 1 어두었을지도 1 으머 1 어주었은께 1 은가만을 1 어지어오았거나 1 었는가에는 1 을줄도 1 다풀을 1 으시겠다고 1 시니깐 1 ㄴ가지가 1 ㄴ터의 1 는디는 1 어쓰려 1 ㄴ다환희의 1 았겠느냐며 1 아보자라는 1 어버리지나 1 는대로나 1 나저쩌나 1 아죽이어야만 1 ㄴ종이배 1 ㄴ자가 1 았냐면 1 었나보아 1 로구만 1 아당기며 1 을는지조차 1 으시되 1 아달랄 1 어주느냐 1 어지었능 1 아주겄나 1 아누르는 1 을까는 1 어바르아 1 다드라도 1 어지었다를 1 어먹으먼서 1 아좋아좋아좋아좋아 1 은것을 1 건을 1 ㄴ다고밖에는 1 여서의 1 ㄴ이슬이 1 는데서만 1 고흩어지어 1 어놓다시피 1 아버리라는 1 어다니더니 1 면언제나 1 는양 1 어다놓을 1 ㄴ수건 1 어서서도 1 어나고자 1 ㄴ다밖에 1 ㄴ가에서는 1 랴만 1 었길래 1 으나를 1 지않았는데 1 어나르듯 1 았느니보다 1 어먹었거든 1 았다니 1 아놓지를 1 어놓는다고까지 1 어놓거든 1 더래 1 시다면서 1"

/-- soynlp/lemmatizer/dictionary/default/Eomi/Eomi.txt:6401-6500 -/
def eomis64 : List (Str × Nat) := rows! "아보았죠만 1 ㄴ모시 1 ㄴ벌이 1 어올리어가며 1 으시겠느냐는 1 은모루유적이나 1 어대건만 1 었나를 1 라든가의 1 었단다네 1 아가니 1 은어매로 1 어내리어보내었다고 1 ㄴ잎처럼 1 어버리었다면 1 아들지는 1 어보태는 1 어앉더니만 1 어끄며 1 았단다는 1 었겠죠 1 아뵙어 1 아먹었지단내로 1 어내려오던 1 어놓았거나 1 어보겠느냐는 1 ㄴ마늘이 1 았던지간에 1 어엎드리어 1 고나오면서 1 어주었듯 1 는구나는 1 시었구나고 1 은토기문화가 1 을상을 1 시었을망정 1 어찍은 1 ㄴ다듯이 1 어주시는데 1 어가아야만 1 었는가고 1 ㄴ간씩 1 어가지었던 1 다대면서도 1 ㄴ마늘은 1 ㄴ애들의 1 어묻지는 1 었다싶어 1 아서든지 1 라는라는 1 어보았으니까 1 옵거니와 1 아붓었으면 1 게경의선 1 ㄴ무늬 1 려하는지를 1 어가는것 1 ㄴ대드라 1 어서면서 1 아드리자 1 느냐면 1 라모 1 아올리아야 1 므로여성은 1 였으니깐 1 어내가며 1 려들는지 1 러오다시피하았던 1 어죽든지 1 어내었다지 1 네저쩌네 1 아지려나 1 었는지두 1 아나오았고 1 어쓰라며 1 랬어 1 아치지만 1 다대지 1 어앉고 1 ㄴ송장이나 1 아하겠구나 1 아주었어도 1 았구요 1 깨로 1 으시었어도 1 어있으니 1 어오았나 1 어보시었는지 1 아안듯 1 ㄹ란다 1 지요마는 1 은가고 1 을려거든 1 ㄴ과류를 1 고싶어서 1 아넘치는 1 는물은 1 은이에게 1 았을수록 1 어올라가며 1"

/-- soynlp/lemmatizer/dictionary/default/Eomi/Eomi.txt:6501-6600 -/
def eomis65 : List (Str × Nat) := rows! "도록하아 1 ㄴ교육과 1 았냐는 1 아오았던가가 1 아오시었듯이 1 리라란 1 ㄴ잔에 1 은남자 1 였었다고 1 야라는 1 아맞추면 1 러가았더니 1 어업으니 1 어보았는지도 1 라지게 1 려들고 1 여고 1 아박고 1 은염산을 1 아오라든지 1 아놓겠다는 1 아누르며 1 았는가 1 다버리고 1 을까말까 1 아먹었던 1 어죽지는 1 어줄 1 려하니 1 어앉히는 1 아끌다시피 1 어가아야하겠지만 1 어두되 1 아보았으되 1 라야지 1 어불어야지 1 다면소낙비 1 ㄴ딱지에 1 는다치고 1 는대야 1 려거던 1 어제끼며 1 ㄴ빵 1 려하던 1 아오았는지는 1 어치어서 1 었다넌 1 어주시곤 1 고쌔었으니 1 ㄴ수술을 1 으시는데 1 어다니든 1 을까요 1 어보내겠다고 1 아놓아도 1 러가며 1 잖아땅 1 고가다 1 은머리 1 았노라니까 1 어내도 1 였으면 1 고물은 1 어오르았다고 1 어서겠지만 1 아지어버리었다는 1 다싶게 1 라하건 1 시거니와 1 어감는 1 지않거나 1 어세우어야 1 어가고는 1 으면바꾸어 1 았을만큼 1 었겠네 1 ㄴ나비의 1 어지었느냐에 1 ㄴ씨에 1 았대서만이 1 아닿곤 1 아주자니 1 었다꼬 1 아오라 1 어지라고 1 어나갈 1 면서도맨날 1 어들라고 1 은것들의 1 어주려다가는 1 어달래도 1 어젖히던 1 자숨죽이고 1 리란것이 1 았으닝께 1 어서만 1 아보건대 1 고두세 1 은누에를 1 아지는가를 1"

/-- soynlp/lemmatizer/dictionary/default/Eomi/Eomi.txt:6601-6700 -/
def eomis66 : List (Str × Nat) := rows! "어다보는 1 어보이게 1 어죽어도 1 어서보고 1 아내려오아서 1 아서하는 1 아지었나 1 ㄴ지까지 1 어뻗고는 1 ㄴ책 1 옵니다 1 어갖는다고 1 라메 1 는구나를 1 어들었으니 1 다는지 1 냐에서 1 겠던지 1 아서든 1 어당기고 1 어오았으면 1 어던지면 1 어들어가았다는 1 어뜨고 1 어보겠느냐 1 어다주겠다면서 1 ㄴ교육으로 1 시어야지만 1 아주더라 1 을까보아까지 1 어오므로 1 았던것이 1 어들거나 1 어치지는 1 란다 1 았심더 1 아오르면서 1 다대고는 1 어야지만이 1 ㄴ머리에 1 았겠거니와 1 ㄴ다구만 1 다버리면 1 아보자거니 1 ㄴ적조차 1 건대는 1 아올리어지더니만 1 어올라가다 1 어먹덜 1 러가았거니 1 랍니다 1 아버리었는데 1 고벌이 1 아가겠다고 1 어서었는 1 어다드리라고 1 어제끼고 1 었던간에 1 ㄴ비행 1 아라라고 1 고하도록 1 아계시었다는 1 ㄴ털을 1 았었듯이 1 어들어오면 1 겠는지를 1 라듯이 1 ㄴ고로 1 어치우려고 1 어지내던 1 네잘 1 면나는 1 시었는가의 1 어주시면서 1 어지었어야 1 니깐은 1 어나가았지만 1 아나오시다었으니까 1 아있었던 1 아올리지 1 았을뿐 1 아빠지게 1 게로 1 어가게나 1 ㄴ테의 1 어다니니까 1 아버리다 1 은세대에게 1 어매어도 1 았다기루서니 1 은악마에게 1 아놓았으면은 1 어붙이느라고 1 ㄴ고개가 1 았다오았던 1 ㄴ것과는 1 어뜨는 1 ㄴ날들을 1 어까고 1 는다는데도 1"

/-- soynlp/lemmatizer/dictionary/default/Eomi/Eomi.txt:6701-6800 -/
def eomis67 : List (Str × Nat) := rows! "어보려다 1 어내리어보내는 1 았다가았다하아서 1 어잡더니 1 어놓듯이 1 어보이니 1 나라고 1 고서저 1 니되어 1 ㄴ머슴을 1 었고녀 1 ㄴ다고절실히 1 아버리었을지 1 어붙었던 1 어입는 1 아나서었다고 1 라든지의 1 어들고만 1 어놓았느냐 1 다사육장에 1 으디젊은 1 자거니 1 어짜는 1 ㄴ공사를 1 수록 1 아지리라라는 1 아버리려다가 1 아팔는 1 아만에 1 아버리어야하겠다는 1 어물었지만 1 다놓았던 1 ㄴ봄이나 1 어다나 1 아오아하며 1 어들었으면 1 어보이었으나 1 아지어아무것도 1 시라니 1 아닿지를 1 냐하아도 1 ㄴ원을 1 다버리려고 1 까요 1 어두요 1 아놓았다시피 1 어달리어서 1 아먹는다고 1 드래면 1 다않게 1 려는지는 1 라하시며 1 것어 1 아타라고 1 어지려니 1 러가아 1 어바치는 1 자커니 1 아야겠고 1 던가라고 1 응깨내 1 는다안개의 1 아다니지도 1 ㄴ시간이 1 냐고는 1 은콩 1 아떨어뜨리는 1 었으라고 1 어차아도 1 다놓아야 1 라든지를 1 었더래두 1 시겠다구 1 라면서요 1 어쌓더니 1 ㄴ나의 1 으시는지 1 아놓았는가를 1 어있었지만 1 다주며 1 어나오아야 1 여지잖아 1 시더라 1 겠드라고 1 ㄴ길가에서 1 다오아 1 었을지도 1 아보자며 1 었답디다만 1 어치우었고 1 아고 1 ㄴ데유 1 시었느니 1 아보이는데 1 디넓은 1 ㄴ반에 1 니난 1 어지었는지라 1 은돌로 1 아보느라고 1"

/-- soynlp/lemmatizer/dictionary/default/Eomi/Eomi.txt:6801-6900 -/
def eomis68 : List (Str × Nat) := rows! "ㄴ껍데기만 1 아가지를 1 아내자는 1 어보이자 1 았다가았을 1 아가았다 1 다김갑동 1 아내어가며 1 어보내었는가 1 어쌓아서 1 아잡는 1 든작든 1 으시곤 1 을것들을 1 어지어있지 1 어입어야 1 고가지는 1 나다나 1 아붙어 1 어끝끝내 1 는다이정옥 1 으래도 1 아가는데는 1 다드리려고 1 쿠나 1 을라니 1 어라저러어라를 1 죠만 1 시었는데도 1 어불고 1 어오았는데두 1 아내었넌디 1 아나며 1 어보시어서 1 아주라던 1 아있구나 1 았더라하았는데 1 는가부터 1 시겠지요 1 세요당신의 1 시었으리라고는 1 다면요 1 사고 1 어다니다시피 1 어주는 1 았나보군 1 시었을지 1 어보이려 1 ㄴ기분을 1 아보는구나 1 ㄹ려도 1 어뻔지어두 1 지말는 1 어있었기에 1 ㄴ낮은 1 어대어라고 1 어주든가 1 았느나며 1 드라니까 1 어먹었지만 1 어주었든 1 어댕기었어두 1 어살리느라 1 느냐만 1 어지었다구 1 느냐에서부터 1 어가는디 1 어당기는 1 어들었다고 1 았느냐에 1 아버리었습니다만 1 아계시는 1 았대야 1 려들지만 1 어주었어야 1 었는가를 1 어대두 1 아보래 1 ㄴ사주에 1 어오아야하겠다고 1 아있지만 1 아돌아 1 는가에서부터 1 어다니넌 1 아버리려고 1 ㄴ날들이 1 어달려 1 었냬요 1 아오르려는 1 다거나를 1 어달랄까보아 1 아올라가고 1 어먹었을까를 1 아나았으며 1 어들어와 1 라구만 1 은고 1 어요가 1 어죽었다 1 다달라면서 1"

/-- soynlp/lemmatizer/dictionary/default/Eomi/Eomi.txt:6901-7000 -/
def eomis69 : List (Str × Nat) := rows! "어매구 1 ㄴ내만 1 아나가야 1 어모으지 1 라시면서 1 었으니깐 1 고오았던 1 아넣으면 1 어두어서야 1 았대드라 1 였어요로 1 으시걸랑 1 아닿아 1 어타며 1 다오는 1 아내느냐고 1 어닫고 1 어나오았는지 1 ㄴ편은 1 아입히는 1 ㄴ녀석과 1 아하아야만 1 시 1 고프아 1 니에는 1 아보려구 1 어엎드리어서 1 ㄴ여자가 1 아맞추는 1 어니까 1 다붙이려고 1 어있어서 1 어하는가에 1 시었으면서도 1 았던고 1 은애는 1 았던바 1 어채고는 1 지않았으나 1 면슬픔도 1 어내는지에 1 아쓰는 1 어밀는데 1 는강 1 어않아 1 ㄴ숟가락 1 은밥이나 1 어당기었다가 1 었냐보다 1 어만 1 아지느냐 1 아놓는다고 1 어넣듯 1 아내리었다가 1 었었냐 1 을시고 1 게요 1 어넘기면서 1 어나가아는 1 어뱉으며 1 아오았는 1 란들 1 어서보다는 1 다보고는 1 어발기어 1 오이다만 1 아버리려면 1 어지내었지만 1 ㄴ즙에다가 1 어오았는디 1 아나서어서 1 으냐의 1 아보겄다구 1 어보려면 1 다판단이 1 어내리어가았고 1 능거 1 았는지만 1 나이다빌나이다 1 어버리었는가를 1 아서에 1 아내었는지 1 으시었어요 1 아가더라는 1 어내려던 1 구간에 1 고있지 1 재 1 라냐가 1 어두지도 1 는다나 1 어올라가아도 1 시는데도 1 어들어가게 1 어내시는 1 구나니까 1 아보든지 1 어지어었거니와 1 아쟁이어 1 은피 1"

/-- soynlp/lemmatizer/dictionary/default/Eomi/Eomi.txt:7001-7100 -/
def eomis70 : List (Str × Nat) := rows! "았다보다 1 겠느냐가 1 고빠지며 1 다말다 1 ㄴ돌이 1 지말란 1 는냐는 1 아가시려면 1 아다니고 1 어주자면 1 아넣었다고 1 어다니도록 1 려치면 1 디끼 1 라아 1 아내어주고 1 ㄴ가하며 1 ㄴ이들의 1 아버리었거니와 1 었던지도 1 ㄴ댕기로 1 는다섹스도 1 았다느니보다도 1 ㄹ라니까 1 어모시게 1 ㄴ기운에 1 어두었으면 1 고독자는 1 어내아서는 1 라내었다는 1 어지게끔 1 ㄴ소를 1 어비치는 1 라내었던 1 시느니 1 은애들 1 었거라고 1 었지었던 1 아잡숫고 1 으냔 1 아묵고 1 였다며 1 어펴며 1 었지만코발트 1 ㄴ아기의 1 는이와 1 ㄴ조의 1 나니까 1 어보았단 1 는그라 1 어다니느라 1 아놓았으나 1 라서도 1 아보이었으나 1 어가자니 1 음직하아야 1 고듣어야 1 였겠네 1 어놓고서는 1 아있는데 1 았다시절은 1 아오았을지 1 아오시고 1 어붙었을 1 러오는 1 든가의 1 ㄴ가슴근 1 다먹을 1 어내는지가 1 아보아야겠어요 1 었었던가를 1 ㄴ댕기 1 으뭇 1 어야하았다는 1 아받아 1 아오르려고 1 어뿌라하고 1 을제는 1 어서었는데도 1 ㄹ까가 1 었는지에도 1 으라면서 1 아내 1 어오르아만 1 어서지만 1 아다보고 1 지않아두 1 아잡아 1 아덮으면서 1 게나타나고 1 ㄴ일도 1 아드리었는데 1 았나보다고 1 는지와는 1 아나게 1 으시었나 1 어라의 1 ㄴ물기가 1 나마나라며 1 았다오면서 1"

/-- soynlp/lemmatizer/dictionary/default/Eomi/Eomi.txt:7101-7200 -/
def eomis71 : List (Str × Nat) := rows! "아놓으랴면 1 자지라와의 1 어넣었을 1 어두고만 1 다지먼 1 ㄴ딱지가 1 ㄴ제목 1 어살리어주는 1 고서리 1 ㄴ어른들과 1 어나오듯 1 다드리는 1 어보이면서 1 네라는 1 아보기에 1 어처먹고 1 였는가 1 ㄴ길의 1 어하자 1 ㄴ음식을 1 았었어도 1 어두란 1 고싶거든 1 아가는가 1 어나오지만 1 어뵈는 1 어지든가 1 아주마고 1 아들어오고 1 면서라고 1 어지어오곤 1 아엎치고는 1 나이다 1 아당기다 1 는색채의 1 아내어가아 1 어주려다가 1 려하았지만 1 었다가저러었다가 1 라하았고 1 아놓았는데도 1 어다주라고 1 ㄴ손님이 1 다버리어지고 1 고나가려다 1 아마시어도 1 어놓을지 1 아하냐에 1 다놓고도 1 리야 1 은작가 1 어쓸도록 1 어떨어지었던 1 어내었을까를 1 ㄴ공에 1 시고부터는 1 았어라고 1 어주되 1 어내리어가다가 1 어다주건만 1 아버리었더니 1 새놀새 1 ㄴ댕기를 1 은물이 1 라서요 1 어나니 1 았다오았냐 1 았다매 1 아놓지도 1 늠 1 어지었다고도 1 라하시더니 1 어지다시피하았던 1 아있을지는 1 은악마들의 1 았었다거나 1 어매어놓아도 1 아오았더니 1 어라존 1 았다길래 1 냐는것이 1 넌디두 1 ㄴ자리 1 도록하면서 1 아보이더라는 1 았을는지는 1 더군요 1 었겠구나 1 었겠다 1 아가느냐가 1 어지었나를 1 ㄴ상자에 1 은대청은 1 어버리려구 1 으니오아 1 어놓다 1 아들어가려 1 어타야 1 아드리되 1 았었더라는구면서도 1"

/-- soynlp/lemmatizer/dictionary/default/Eomi/Eomi.txt:7201-7300 -/
def eomis72 : List (Str × Nat) := rows! "아빠지었다는 1 게되며 1 ㄴ물 1 어하리라는 1 아오머 1 어주었다며 1 안다 1 ㄴ다고하아서 1 음직하아서 1 아버리겠다던 1 시라는데 1 았어요가 1 시지않냔 1 ㄴ켠에 1 며눈물짓는 1 어나면서도 1 ㄴ컵의 1 아부르며 1 아두었던지 1 은습관을 1 려구도 1 아야겠다면서 1 였다더니 1 아주겠더라고 1 었을뿐더러 1 어주었기에 1 은악마들이 1 아헤매었던 1 ㄴ고무신을 1 아빠지고 1 ㄴ켠이 1 고자는 1 어넘기고 1 을는지에 1 은것들 1 시사 1 은층에 1 았다오았다고 1 였으믄 1 었겠냐 1 ㄴ녀석 1 아가야 1 어앉도록 1 아라스테판 1 다고까지는 1 고보아라 1 어올리니 1 라니깐 1 였으니 1 ㄴ족두리를 1 고달려오는 1 아주었다가 1 아놓느냐 1 어떨어지듯이 1 어보내어야하겠다고 1 어놓아지었을 1 어두시어서 1 아주느냐는 1 아주었으리라는 1 어있어야만 1 아묵은 1 어오았건만 1 시었는 1 아서개미의 1 아도안개 1 어주고서 1 였겠구만 1 시는가를 1 았다주었다카디 1 어지어서가 1 어다주어서 1 구프아서 1 겄는데 1 어버리었던가 1 었냐고 1 려들는지는 1 어보려니 1 ㄴ저고리에 1 어지어버리었으면 1 였다고도 1 어야하았고 1 다바치어야 1 락하아 1 어야하겠으며 1 ㄴ지조차를 1 어주려나 1 어살아야 1 어먹을까 1 은년만이 1 어나오니 1 은맛있는 1 었으니까로 1 마지 1 어내어배춧잎 1 는께 1 았었다고 1 아만들다가 1 어버리더라며 1 어싸면서 1 ㄴ씨는 1"

/-- soynlp/lemmatizer/dictionary/default/Eomi/Eomi.txt:7301-7400 -/
def eomis73 : List (Str × Nat) := rows! "어보이게끔 1 러면 1 겠으니까 1 ㄴ장소와 1 어내리듯이 1 아오았느냐고 1 어있길래 1 어다니머 1 은기간에 1 어선 1 ㄴ면 1 았네자네 1 이뿌리게 1 ㄴ런대는 1 어버릴 1 아주었다니 1 아끌는 1 는구나왜냐하면 1 아놓았길래 1 어버리구 1 는다넌 1 ㄴ다는게 1 았겠지마는 1 아주겠노라고 1 는디도 1 아버리니까 1 아놓으라는 1 아누르면서 1 ㄴ대니 1 었기로니 1 래매 1 아가지구서는 1 시겠느냐고 1 어삼키는데 1 ㄴ순은 1 어나지를 1 다찾다 1 구프어두 1 어하거든요 1 시어가지고도 1 는데서는 1 느냐하 1 어붙이며 1 어두면서도 1 았노라며 1 아다니며 1 아놓지만 1 ㄴ주머니 1 아먹이고 1 다저렇다 1 디말라 1 아내라는 1 었느니만큼 1 어안고 1 고헬스센터에서 1 어서뚱뚱보 1 어살다가 1 어패면서도 1 아지었어요 1 아버리어두고 1 어앉아서는 1 ㄴ마을 1 어보았어야 1 라하았단 1 을란지 1 시더라고 1 었기루서니 1 어업은 1 려오 1 어달리다시피 1 ㄴ칼과 1 냐말는 1 아죽게 1 아지었다거나 1 고나지는 1 아주겠다 1 아들은 1 오리까 1 겠느냐를 1 ㄴ면과 1 게라구 1 서지지는 1 다오아서 1 더니마는 1 어넘어지든가 1 어하는구나 1 다너의 1 아서부터가 1 ㄴ몸으로도 1 어가지고서도 1 ㄴ밥에 1 시문 1 고무르팍을 1 어들어가았다 1 ㄴ자들의 1 아가아보면 1 어하듯이 1 었지나 1 ㄴ자의 1 았다마는 1"

/-- soynlp/lemmatizer/dictionary/default/Eomi/Eomi.txt:7401-7500 -/
def eomis74 : List (Str × Nat) := rows! "어내려가아지는 1 아입으라고 1 아안으려는 1 ㄴ줄로만 1 을것만 1 았는데에도 1 아지더란 1 ㄴ꿈을 1 였더라 1 아두었고 1 었그덩 1 아오았거니와 1 아오았었는데 1 ㄴ말에 1 아가나 1 은머리에 1 은데가 1 다라고도 1 었는데요 1 쟤 1 다느니보다는 1 리까만 1 어봐도 1 아지든 1 어내려고만 1 ㄴ다고만은 1 더라하았는데 1 구라두 1 아지었다는데 1 어넣었고 1 어날뛰던 1 어두니까 1 어내려가듯이 1 어버리라 1 았나카니까 1 ㄴ건만 1 은아이의 1 아대서 1 었대나 1 어제끼던 1 았다가았다하니 1 ㄴ구 1 ㄴ다라구 1 아콩을 1 어나가는가 1 ㄴ나무등록제가 1 어뱉고 1 우며오늘밤도 1 아들어가게 1 았다가라고 1 아서밖에 1 었지라는 1 어나오니까 1 ㄴ집이나 1 어가다보니 1 어보겠다 1 시는구나 1 고니고 1 아차며 1 다놓자 1 아드리라고 1 으시시려고 1 으러지어 1 아드리어야하겠다는 1 아나가는가를 1 였나요 1 어있을지 1 은층들이 1 고나가려 1 았었을지 1 어야하는데 1 ㄴ이까네 1 러오라고 1 ㄴ대청과 1 은구들 1 었노라니 1 어가냐고 1 ㄴ저고리를 1 았단다 1 어내느냐 1 고나의 1 아오시구 1 았었노라는 1 까를 1 어물곤 1 ㄴ다먼 1 으라느니 1 ㄴ색소가 1 어신었는데도 1 다시피하았으나 1 어다놓겠다고 1 는가에만 1 어대니께 1 라께 1 어지내는 1 아마시면서 1 ㄴ바람 1 게되면서 1 당가 1 어나가았으면 1"

/-- soynlp/lemmatizer/dictionary/default/Eomi/Eomi.txt:7501-7600 -/
def eomis75 : List (Str × Nat) := rows! "어들어오면서 1 려믄 1 어지어버리었고 1 아버리었 1 아내주면서 1 아주느냐가 1 아나서듯 1 고나가고 1 다는디도 1 었다던지 1 어서래 1 어놓아버리면 1 시었는가요 1 아주었느냐고 1 어패라는 1 구나하고 1 어넣을라고 1 는가보다라고 1 아당기었나 1 았나의 1 어놓았는가 1 ㄴ것없이 1 아지어오아 1 면은야 1 았을까하는 1 았다거나 1 ㄴ만큼만 1 라지도 1 ㄴ인절미에는 1 아가라고 1 아놓고만 1 ㄴ더위를 1 어주어야지 1 어보내라고 1 어놓았기에 1 었습니다로 1 었든지 1 어하는지도 1 ㄴ고모가 1 아오시느라 1 아묵으모 1 어지자는 1 ㄴ벽을 1 아나가다보면 1 시래면은 1 ㄴ생각 1 지있지 1 요마는 1 어지고야 1 어모으아가고 1 고가면 1 느냐고요 1 아매어 1 지못하면서 1 을팅께 1 면서꺼정 1 어오았다니 1 아세우더니 1 게되었으니 1 어다주겠다고 1 어지어오았고 1 어나았던 1 시었다넌 1 나다 1 어보았느냐고 1 시지를 1 면서부터도 1 았느냐란 1 는만치 1 었으니까요 1 아불었단 1 아엎듯 1 아야하겠다며 1 였는지도 1 은날에 1 어보잔 1 겄나 1 고보고자 1 으려는지라 1 네를 1 어내었을지도 1 아보라면 1 시었사온데 1 아붓었지만 1 ㄴ이두 1 아야하는구나 1 자참자 1 어지어가려 1 어나가았든지 1 어먹자니 1 어가지고야 1 어오라면서 1 어걸리지 1 어지었거니와 1 는톱의 1 대서야 1 은트럭 1 ㄴ데까지 1 아주겠다면 1 아채어 1"

/-- soynlp/lemmatizer/dictionary/default/Eomi/Eomi.txt:7601-7700 -/
def eomis76 : List (Str × Nat) := rows! "어먹이고 1 은자형 1 은김에 1 어부치고는 1 으면은요 1 았다는듯 1 는즉 1 고말았다고 1 어가든가 1 어오았든 1 ㄴ시민사회를 1 아듣고는 1 았응깨 1 었다하던데 1 어보이겠다는 1 어지다가는 1 ㄴ분쯤은 1 어놓았으이까 1 어버리었어야 1 어주었다 1 랑게 1 겠는데요 1 면서조차 1 어나가자고 1 었고야 1 라면야 1 고보고 1 어쓰지도 1 느다면은 1 라가라 1 어라저러어라하는 1 어불게 1 어돌리어 1 듯하던 1 아있을뿐더러 1 아주지않고 1 어들겠다는 1 어먹으니 1 어올리려다 1 ㄴ만큼을 1 어다주고도 1 어놓으시어야 1 아내어서까지 1 어다붓고 1 어넣어가는 1 어들어서는 1 아있게 1 어먹거나 1 ㄴ해설과 1 았었냐 1 ㄴ불에서 1 ㄴ다든가의 1 고껍데기는 1 드랬지 1 고있었지만 1 겠다싶어 1 고가슴을 1 은바가 1 아달았어도 1 아대지만 1 아야하겠어서 1 어붙지는 1 었다넣다 1 았는가가 1 어나오기에는 1 도록끔 1 ㄴ바람만 1 애면은 1 시었더면 1 는것밖에 1 아가므로 1 려오아서 1 어나대는 1 어내는지를 1 고뒤채이며 1 어주믄 1 고는시디 1 ㄴ길이나 1 었거나간에 1 으시시는지 1 어대자면 1 어주다니 1 기라도 1 아버리었기에 1 어놓았다가도 1 어내오고 1 고가자 1 아앉을 1 아다드리지 1 어주었더란 1 라서는 1 고어떤 1 아지었건만도 1 어하니께 1 았었는 1 건임 1 어매어주는 1 아오르았다가 1 ㄴ시즌 1 아나오아야 1"

/-- soynlp/lemmatizer/dictionary/default/Eomi/Eomi.txt:7701-7800 -/
def eomis77 : List (Str × Nat) := rows! "ㄴ소리는 1 엇 1 냐에는 1 는놈 1 아붙는 1 으려하았으나 1 아내었다면 1 아들어가고 1 어달랠 1 어나오듯이 1 었죠라는 1 시고서야 1 아뒤따라오았던 1 나만 1 ㄴ유학반을 1 ㄴ종이로 1 어넘어가던 1 어앉았던 1 애면 1 아라귀를 1 어주자구요 1 은빛의 1 겄다 1 아다까지 1 였었대 1 ㄴ낙지가 1 아있다 1 었는지만을 1 은개미에 1 았으니만치 1 고사는 1 아지는지를 1 ㄴ구들은 1 시겠오만 1 어두며 1 는냥 1 았지않아 1 아들었던 1 어보려다가 1 아먹으니까 1 더대라구 1 어오르았다가는 1 아지길래 1 아바치러 1 어맞은 1 았던동 1 았겠어요 1 었습니다만 1 랠까 1 어나가지도 1 은머리박새의 1 어죽는다고 1 아넣거나 1 ㄴ들에서만 1 시면서는 1 았든 1 었냐니까 1 으시느라고 1 ㄴ다고요 1 ㄴ가운데 1 어넘기지 1 었거나에 1 어버리었는 1 은정신 1 어나듯 1 었는고 1 었다를 1 지않는다는 1 라시면 1 더면 1 아놓는다든지 1 냐고도 1 ㄴ다믄 1 리니내 1 여서만이 1 ㄴ대면 1 겠드라구요 1 어지라는 1 려서는 1 ㄴ송편만을 1 어물다 1 겠다라는 1 ㄴ거리를 1 아놓아야만 1 ㄴ걸음으로 1 어다팔아 1 ㄴ누에고치들이 1 어내려가자 1 ㄴ잿빛의 1 더먼 1 어지니까 1 엇으므로 1 아제치고 1 지않다고 1 었대니까 1 아보시란 1 는다이상권 1 아부르는 1 ㄴ애에게 1 고그 1"

/-- soynlp/lemmatizer/dictionary/default/Eomi/Eomi.txt:7801-7900 -/
def eomis78 : List (Str × Nat) := rows! "ㄴ공기와 1 아놓고서도 1 ㄴ다리에 1 여지면 1 은일에 1 는반전시위의 1 라니까는 1 겄느냐고 1 디떫은 1 다주게 1 을지니 1 었는가까지 1 아서부터야 1 ㄹ지래도 1 을진대 1 었지만정치적 1 고없고 1 소이다만 1 어먹으라고 1 으리이다 1 ㄴ잎들을 1 은돌들이 1 어지었으리라 1 어지어 1 어버리었단 1 아라구 1 아오았던가 1 이뿌능 1 아대려는 1 지은 1 자세가 1 였다네요 1 애야 1 어보내도록 1 어서라두 1 어드리어야하겠단 1 람시로 1 어내리었는데 1 ㄴ다손치고 1 어드리려는 1 다한스 1 었나는 1 ㄴ가부터는 1 어가랴다가 1 어주었어도 1 았다오았는지 1 었었을 1 다하다가 1 어올리자 1 어보지를 1 어버리고마는 1 어나르았을 1 겠다마는 1 ㄴ년 1 ㄴ짓도 1 겠다고까지는 1 어버리어가지구서는 1 은층과 1 을텡께 1 어올리고서 1 어야하겠으니 1 어내어주시면 1 었데 1 ㄹ텐데 1 어놓으라니까 1 어보라고도 1 시었건만 1 아당기고 1 잘데 1 으믄서 1 러들어오았으면 1 아쥐듯이 1 어모으은 1 라오랜 1 었대니까 1 아넘어가지는 1 ㄴ서리가 1 었어야지 1 어죽으면 1 어끄면서 1 아가두면 1 ㄴ역은 1 었으랴 1 다드리라고 1 아대었으면 1 였기에 1 었게요 1 은과목 1 았은께 1 구서요 1 어맞추는 1 아있기에 1 어나가느라 1 아쌓넌 1 어지내다 1 아나서고 1 어차는 1 ㄴ떡을 1 어들어가았다고 1 였대메 1"

/-- soynlp/lemmatizer/dictionary/default/Eomi/Eomi.txt:7901-8000 -/
def eomis79 : List (Str × Nat) := rows! "ㄴ배추가 1 았으니깐 1 아지기 1 시드라 1 였대매 1 디어설프게 1 어올라가면서 1 고가는데 1 ㄴ반사도 1 ㄴ힘이 1 을때도 1 시드라구요 1 었었대요 1 어불었다면 1 어놓았냔 1 아서부터도 1 아나가기에 1 어지어버리었는데 1 여하지 1 어오노 1 아맞추려는 1 고살다 1 어지내어야만 1 어팔지 1 어먹더니 1 었다기에 1 는강철 1 아나가지도 1 시겠듯이 1 아라발을 1 었다는데 1 아쌓다가 1 어보이다 1 아나서었으나 1 아보기로 1 았응께 1 시었네 1 고오았을 1 은구들쪽과 1 아놓았지 1 어당기던 1 어박아 1 여지는데요 1 어서서는 1 어주면서부터는 1 다나요 1 아뱉고 1 아야지만 1 디섧게 1 었냐믄서 1 었던가까지 1 어지어서야 1 어가고만 1 아가았으므로 1 라더라 1 았다가가았다 1 어떼고 1 어지자고 1 다팔고 1 아주었듯 1 어맞거나 1 고들어 1 어있지는 1 아먹는데 1 더라어떤 1 었댔자 1 ㄴ대매 1 ㄴ모델을 1 어죽었다넌 1 는물 1 을새 1 ㄴ들거리고 1 니하았어도 1 어주었다가 1 아내었느냐는 1 어내려는데 1 아내리거나 1 ㄴ웃음도 1 아보았느냐고 1 는다암흑의 1 시었다고는 1 다먹넌 1 겠드라구여 1 아버리시었지만 1 아보았으니까 1 어다도 1 아주려고만 1 어안는 1 아들려고 1 었나요 1 잔다는 1 어올라가았 1 아채이어 1 아끼우는 1 로군 1 ㄴ다라면서 1 아입게 1 어나오았을지도 1 ㄴ깡통이 1 았냐면서 1"

/-- soynlp/lemmatizer/dictionary/default/Eomi/Eomi.txt:8001-8100 -/
def eomis80 : List (Str × Nat) := rows! "아주시어 1 ㄴ칼로 1 어드리곤 1 은염산이 1 어내리 1 아놓았는가 1 었더라구 1 ㄴ다크리스티네 1 어두어야하겠다는 1 까보아 1 ㄴ사고 1 ㄴ아이들 1 어놓으라넌디 1 어있다보면 1 고야말는 1 아박으며 1 아들어가면서 1 아걸었던 1 았군 1 여면서 1 아오냐고 1 어주변 1 었지를 1 러라 1 ㄹ끄나 1 았겠죠 1 다서로의 1 세나 1 야하고 1 던저 1 어젖히지 1 ㄴ다캐서 1 겠다거니 1 ㄴ여자 1 자느니 1 아먹다 1 아다니었는데 1 ㄴ밥을 1 ㄴ하늘 1 ㄴ민들레 1 지않으며 1 어살리느라고 1 어오아서도 1 으시시다가 1 으라더라고 1 았구마 1 ㄴ보표 1 는시기를 1 어내었는 1 아입히던 1 은친절 1 아차아 1 리라고도 1 ㄴ돈으로 1 누라고 1 아앉히어야 1 어오르거나 1 랜다 1 어오았듯 1 았다기에는 1 ㄴ변 1 어떼려 1 ㄴ흙의 1 ㄴ팔로 1 다먹는 1 죠도 1 어물고서야 1 ㄴ지만을 1 었을까에 1 아서저녁을 1 어넣다가 1 었더니만치 1 다저물면서 1 어대므로 1 어붙을까보아 1 고돌다 1 어버리었다니 1 어놓으려다가 1 었군 1 어다주겠다는 1 아지었나를 1 면은이야 1 어드리거나 1 ㄴ가까지는 1 어놓았던지 1 어놓지도 1 아내리어서 1 어나가아야하겠다는 1 어들었다가도 1 시었을까를 1 너라고 1 어들어가도록 1 옵고내음 1 대다가 1 으시라구 1 ㄴ소리치지만 1 어지네 1 어놓을려고 1 아지어야겠다는 1 었으려니와 1"

/-- soynlp/lemmatizer/dictionary/default/Eomi/Eomi.txt:8101-8200 -/
def eomis81 : List (Str × Nat) := rows! "어버리고만 1 아지자면 1 아박은 1 아보이었는데 1 ㄴ바닥에서 1 은분 1 아안아 1 아서보다 1 어줄는지도 1 아오느냐 1 아하느냐에 1 은쌀을 1 았었대는 1 ㄴ오구굿을 1 ㄴ제물에 1 는구나라는 1 어구르는 1 어떨어지다시피하게 1 어나가았으므로 1 아모으러 1 어깎은 1 ㄴ쌍을 1 었었어 1 아버리기에 1 아나면 1 ㄴ팀을 1 어버리었다가 1 어드리구 1 어앉으며 1 어살리어야만 1 어올라가아보아야 1 어내고서 1 어야하지만 1 다달라는 1 고놀고 1 ㄴ소리가 1 아대었지만 1 시라니요 1 아었던 1 래메 1 랄까에 1 었었나를 1 아지어내려오아 1 어올라가지 1 었었느냐고 1 았겠는가마는 1 아야되고 1 아듣을까 1 시었거나 1 어받게 1 아주넌디 1 어버리자고는 1 ㄴ자갈들을 1 지않는다면 1 어주었다거나 1 소서는 1 다주곤 1 었습니다가 1 ㄴ꿀이 1 어오라 1 다카더만 1 랑가 1 았어면 1 어다달라구 1 어먹을까보아 1 어스타도 1 는것처럼 1 아넣다 1 ㄴ눈물 1 ㄴ딱지에도 1 소이다 1 ㄴ눈만 1 어들겠다고 1 어싸면은 1 라오아 1 었기 1 아붓으면 1 어지어어서 1 는데에서도 1 아지어오았지만 1 아다니더니 1 아제끼는 1 지않았겠느냐고 1 어붙으려는 1 어밀면 1 아무더기로 1 어앉으면 1 아야하는가를 1 았느냐구 1 어보았느냐며 1 어뿌니 1 어지은 1 다대었을 1 므로가 1 고박는데 1 아내니 1 어서버텀 1 다주지만 1 구저러구 1 었는걸 1"

/-- soynlp/lemmatizer/dictionary/default/Eomi/Eomi.txt:8201-8300 -/
def eomis82 : List (Str × Nat) := rows! "었다단숨에 1 아마시어두 1 아먹도록 1 어가아주지 1 어먹으라는 1 어죽이고 1 았나랑 1 라든가로 1 았다는지 1 어지는데에다 1 는연구를 1 어불어야 1 았는지두 1 았드라 1 ㄴ자와 1 아오았더라고 1 어내어라 1 어주고싶은 1 었을까만 1 아서지만 1 ㄴ마당 1 어가겠지만 1 노라면그리고 1 어으면 1 은방을 1 았었더면 1 어가았는지만 1 아서마저도 1 어죽어가는 1 아서밖에는 1 아버리었다면 1 었드라구 1 읍니다만 1 어오아주지 1 려하았는지 1 아서두야 1 었는걸요 1 었네파울로 1 아지어오았을 1 ㄴ사자 1 어놓아불었다는 1 아올리면서 1 어던지면서까지 1 어들었지만 1 을라는데 1 었음직한 1 가가 1 려하았더니 1 랠걸 1 ㄴ열을 1 아올리던 1 어올라가다가 1 구말구요 1 아내려야 1 아버리다니 1 았겠으니 1 어터지도록 1 고당기는 1 어있다시피 1 어보덜 1 아듣는 1 았더냐고 1 ㄴ역사에 1 느냐고까지 1 았을뿐만이 1 아물고 1 았는데다가 1 아보듯 1 아늘이는 1 어까는 1 었다면은 1 라지금 1 었더만 1 아하았는데 1 더만요 1 었다거나 1 어내려다가 1 다정상현 1 아붙이어야 1 ㄴ어른으로 1 ㄴ깨내 1 어들지만 1 아놓고서는 1 었다던디 1 아하아도 1 디만 1 은대청 1 었넌지 1 란것이 1 아먹이었지만 1 는거야 1 라는데도 1 ㄴ봉투에 1 어내려가면서도 1 것냐 1 은눈에 1 ㄴ다고서럽어말아라 1 음즉도 1 았냐구 1 으시구 1"

/-- soynlp/lemmatizer/dictionary/default/Eomi/Eomi.txt:8301-8400 -/
def eomis83 : List (Str × Nat) := rows! "고늘어지자 1 려먼 1 라며는 1 어두거니와 1 는다고하아 1 아서처럼 1 아먹자니까 1 어다놓아야 1 어주어야하아요 1 어다놓고도 1 어들면서도 1 어자빠지는 1 고받았다는 1 었으리 1 다는얘기가 1 어담다시피 1 었으니깐 1 아서서 1 어다도 1 아먹든 1 아주시라는 1 어지었다고나 1 아버리겠다니 1 다주는데도 1 은빛 1 었겠다는 1 어내어었고 1 시더군요 1 ㄴ다문 1 래게 1 었겠죠 1 ㄴ나라 1 ㄴ셔츠 1 어달라면 1 어내리었기에 1 는대는 1 었어요하고 1 냐와는 1 아놓자 1 어오았지 1 고보는 1 어오려면 1 지못하고 1 은골해수욕장 1 아가려 1 ㄴ잎만을 1 자하지 1 았거나 1 어불었단 1 어도는 1 았대더니 1 어지어버리거나 1 였었다는 1 아오자마자 1 어지면서까지 1 어하아서뿐만이 1 라카는 1 는땅이 1 어내었나 1 았었다라는 1 ㄴ공같이 1 어들다가 1 다든지의 1 아들어오아 1 게끔만 1 아나오는데 1 어보다가도 1 은볼기근 1 기야 1 ㄴ기업이 1 다오겠다고 1 시라니까 1 어오시면 1 어먹넌 1 어나오아야만 1 았다하더니 1 을때마다 1 여지지는 1 ㄴ답시길래 1 을까와 1 겠나이다 1 ㄴ물과 1 아하아주면 1 어패았으면 1 어널고 1 아하시지 1 아가꼬 1 어감기는 1 ㄴ사람들 1 아나가다 1 어조지어서 1 ㄴ다의 1 니에 1 ㄴ물에 1 음직하지 1 아가지는 1 으냐를 1 어그 1 요만 1 어오아야하겠다 1"

/-- soynlp/lemmatizer/dictionary/default/Eomi/Eomi.txt:8401-8500 -/
def eomis84 : List (Str × Nat) := rows! "아마자 1 시면서부터 1 어넣어두고는 1 어듣는 1 다감 1 아나오던 1 락하는 1 어보군 1 었드라면 1 다고만도 1 고먹고 1 어빼는 1 다놓고는 1 을뿐 1 어대었는데 1 아맞추어놓고 1 ㄴ거 1 아야지라고 1 ㄴ소는 1 아나가면서도 1 고나서는 1 아뜯고 1 아가았넌지 1 ㄴ섬을 1 ㄴ불로 1 아뿌리었지만 1 겠구먼 1 아보겠습니다만 1 ㄴ잎같이 1 어오르아가지 1 ㄴ곳으로 1 ㄴ돌화살촉은 1 아지어버리었고 1 어파생 1 어당기며 1 ㄴ다느니보다 1 았다시피 1 지비 1 나보던데 1 시어야하겠다면 1 을래니까 1 어오건 1 았기로 1 ㄴ짓에도 1 어오려 1 어버리노라고 1 아다니지 1 게넘기어 1 ㄴ북 1 아거어서 1 은사바중생 1 어두고서도 1 아지는지라 1 은쪽이 1 어주시려고 1 여하니까 1 아내느냐는 1 으시어서는 1 였었지마는 1 어주려거든 1 어밀며 1 아하구요 1 어흐르는 1 고가야만 1 았겠네 1 엇더니 1 은층에게는 1 시리 1 읍시다가 1 어패던 1 아대느라 1 아지겠거니 1 어주려들지 1 드란 1 라카아서 1 ㄴ술 1 어두요 1 ㄴ빛의 1 은일을 1 어죽구 1 어주었는가에 1 아보었지만 1 어걸리어 1 어모마 1 고먹는 1 ㄴ털로 1 ㄴ칼 1 어신느라 1 아지었구나 1 시었다니 1 아처넣지 1 ㄴ사자가 1 어삼키던 1 으시었던지 1 어하시었던 1 었다고밖에는 1 어달오라는 1 어하시는지 1 자사자 1 었은 1"

/-- soynlp/lemmatizer/dictionary/default/Eomi/Eomi.txt:8501-8600 -/
def eomis85 : List (Str × Nat) := rows! "ㄴ가와도 1 어두었거니와 1 아하아지지가 1 아드리면서 1 겄으나 1 어찾는 1 듯이는 1 어보내서 1 어들지도 1 ㄴ비가 1 어지리란 1 려는지를 1 려고가 1 다처럼 1 아지듯 1 어신지 1 어막고 1 음직하아 1 아깨치어서 1 아하려는 1 어다니었다고 1 어오아지었을 1 아타자 1 아다니어야하고 1 아놓거나 1 아주었는데도 1 은모루유적과 1 어주시려 1 면서에 1 ㄴ고모로부터 1 다이곳에 1 라든지가 1 었지는 1 ㄴ다고들 1 은종아리근 1 아총칼 1 지않고도 1 았던데 1 아대었다고 1 어짓는 1 어야지라고 1 고나가지 1 어놓았다는데 1 어쓰지 1 을시 1 ㄴ폭으로 1 다말고는 1 며천번만번 1 아선데 1 았으문 1 ㄴ닭을 1 았겠는가는 1 ㄴ다는지 1 어보잘 1 은때보다 1 였것다 1 구나소낙비를 1 어주시옵소서 1 겠대는대두 1 어앉게 1 어나았다면 1 어가지고서 1 아신으려도 1 었냐는 1 어가려고만 1 고가곤 1 었응가 1 았다가았다하아도 1 야지 1 는지부터가 1 어치자 1 넌가 1 아가았는지 1 아놓아야겠기에 1 ㄴ다이미 1 어놀고 1 어주고픈 1 었으 1 아지기에 1 아치우어야만 1 ㄴ데에다가 1 았었거든 1 았지만사담 1 아올르아가아 1 러다니다가 1 어먹이어 1 아닿는지는 1 어붙이어서 1 어버리었노라고 1 ㄴ목 1 걸래 1 은벗들 1 거니뒤서거니 1 아마시며 1 던그 1 아야하겠기에 1 겠은즉 1 어가지고도 1 였으면서 1 고보자는 1"

/-- soynlp/lemmatizer/dictionary/default/Eomi/Eomi.txt:8601-8700 -/
def eomis86 : List (Str × Nat) := rows! "어올리어지고 1 어오려던 1 어요김은성 1 러가고 1 았다하아서 1 먼서두 1 어넣어야만 1 어대려 1 으리오마는 1 아끄고 1 아만들어 1 다대었는지 1 었더라며 1 어앉히어 1 어오너냔 1 으라하았지 1 ㄴ팥빵은 1 ㄴ모양을 1 ㄴ집으로 1 어달라면서 1 았느라고 1 어가려면 1 고늘어지었다는 1 아보아야하겠노라 1 어주었다는데 1 았을까를 1 았불라 1 아오았더라만 1 다원병오 1 아들이지 1 어지거니와 1 ㄴ아이가 1 으시었다니까 1 ㄴ깨달음을 1 을고 1 어다니어보았자 1 었는지도 1 으시자 1 었다내가 1 어주먼서 1 았었으므로 1 어올라가아야 1 자마자도 1 려는가를 1 ㄴ지야 1 ㄴ게로 1 았는가로써 1 다안영모 1 아차았고 1 어타아야 1 아먹나 1 아보라면서 1 어가지곤 1 은말은 1 으시었다라는 1 듯그곳에도 1 러떨어지어 1 ㄴ포도 1 어두려는데 1 고있다면 1 었고허리에 1 어다주었던 1 었나보다는 1 어다주마고 1 는길과 1 으시시더니 1 아두었느냐고 1 아오고서도 1 ㄴ시책을 1 아오리라 1 아지던데 1 은층에도 1 어들더라 1 아입고서 1 아다니어도 1 어담아지지가 1 느냐에는 1 아묵을 1 아넘기었을 1 어지어버리라고 1 어드리고는 1 냐로까지 1 게보다는 1 어치우었다면서 1 어나가아보려 1 았다니깐요 1 냐라고 1 다면적멸은 1 아쓰게 1 아있으면서 1 어내겠으나 1 고나서야 1 오로 1 아쌓으면서 1 어쥐고서 1 을려니까 1 시었다며 1 다주면서 1 었는데에다 1 오되 1"

/-- soynlp/lemmatizer/dictionary/default/Eomi/Eomi.txt:8701-8800 -/
def eomis87 : List (Str × Nat) := rows! "어보았냐 1 아오다시피 1 아오았었을 1 아지어보고 1 아끌다시피하며 1 시냐는 1 아주겠는데 1 어들이지 1 어당기거나 1 ㄴ따옴표로 1 ㄴ녀석과의 1 은구들과 1 아뵙게 1 아다주고는 1 었어요를 1 아놓았던지 1 어까지 1 아지었건만 1 아버리고서는 1 아내어놓은 1 었던데다 1 어올리겠다고 1 더라는둥 1 었드만 1 시겠다니 1 ㄴ애와 1 아지리란 1 어내려오게 1 다든다 1 았다하여 1 으시었지만 1 다하시고 1 었나고 1 어주나 1 을랴는 1 어있다니까 1 러떨어지었을 1 ㄴ달부터 1 어드리니 1 어맞추고 1 어쌓은 1 ㄴ다게 1 도보도 1 듯하았다는 1 고내리는 1 아듣지 1 어주머 1 시리라는 1 아치우었다는 1 어빠지어가지고는 1 ㄴ지지 1 어죽겠다는 1 시머 1 어넣었을까 1 어넣어주고는 1 어들어오 1 아대도 1 아치우곤 1 시어가지고 1 어보마 1 아모으아 1 어지는데도 1 어주던데 1 어걸치는 1 어안기어 1 어오는지 1 어대었는가 1 아가아다 1 아시니뎌물도 1 었는가부터 1 아나가니까 1 다주구 1 어나가든 1 어지르고 1 아가지고서 1 았었구나 1 ㄴ방으로 1 아주겠노라고까지 1 어있는지 1 았음직하나 1 ㄴ데여기는 1 아하더라고 1 다오시어서 1 으시다길래 1 시지않을 1 아오르려 1 어나가려 1 아먹었다가는 1 어가았나 1 아잡았는데 1 다말는 1 어입더니 1 어가끔 1 고싶으면 1 으리마는 1 아들어가다 1 아들이었다는 1 어모으아다가 1 았을까마는 1 아나가기에는 1"

/-- soynlp/lemmatizer/dictionary/default/Eomi/Eomi.txt:8801-8900 -/
def eomis88 : List (Str × Nat) := rows! "었겠는가를 1 어뿌리를 1 어쓰라고 1 어노동자의 1 아올라가면 1 대면 1 았었습니다만 1 ㄴ불 1 었던가가 1 아주어야겠다고 1 는깊은 1 아주었던것을 1 어보시었다는 1 은가로 1 시기로 1 러오았던가 1 아야하겠거니 1 는바와 1 지만우리의 1 어오다니 1 ㄴ달에 1 으시다면서 1 ㄴ독이 1 어오라고도 1 아있지는 1 아야겠는데 1 며쉬며 1 야만 1 지않도록 1 어가는구나기숙사가 1 아지었는 1 시었기로서니 1 ㄴ불보다 1 아먹어오지 1 어다주니까 1 ㄴ논리가 1 아대듯 1 아오시는 1 ㄴ사회로 1 ㄴ발치로 1 겠거니하고 1 든가요 1 다권혜수 1 ㄴ분 1 어붙게 1 ㄴ꼴 1 어가지고서야 1 는가라든지 1 고가았는지를 1 ㄴ인기를 1 어터지면 1 아놓을지 1 으므로귀는 1 었대두 1 아들어가문 1 아버리고는 1 였냐에 1 았는지에는 1 어지겠지 1 시어야만 1 어차이면서 1 고하나는 1 게짓되 1 아버리도록 1 았겠습니까 1 아주고야 1 아야지만 1 어모으아도 1 어먹되 1 시어요라는 1 바서 1 시우 1 어먹는가 1 었겠습니까 1 으며까지 1 어올리며달리는 1 어올리고자 1 았는데요 1 어내려가야 1 은가까지 1 어가더라도 1 어쓰었고 1 었지도 1 는다구요 1 어지더라는 1 어다팔는데 1 어가지며 1 아달랠 1 었다하더라도 1 었느냐의 1 겠느냐라고 1 구받은 1 은비 1 은테안경을 1 어지으면서 1 다자동차의 1 아들지 1 ㄴ공기가 1 어오았다던 1 아지시련만 1"

/-- soynlp/lemmatizer/dictionary/default/Eomi/Eomi.txt:8901-9000 -/
def eomis89 : List (Str × Nat) := rows! "아나가리라는 1 아지었노라고 1 ㄴ곳에는 1 게끔하는 1 으시었는지는 1 어살아 1 어심지 1 시었구나 1 어내었듯이 1 였든지 1 아달라하았다가 1 듯이나의 1 은놈 1 았더냐는 1 을까란 1 았거던 1 은모루 1 은눈이 1 아주시리라 1 아지든가 1 ㄴ소리치며 1 여야지만 1 어지었었고 1 어가지었다는 1 어지어오던 1 은채로 1 ㄴ빛보다 1 나보다고 1 냐든가 1 어내나 1 고받고도 1 야서 1 ㄴ공간을 1 아보는것이 1 ㄴ기둥 1 아올리었다가 1 ㄴ도 1 라가므로 1 ㄴ데라는 1 어두시는 1 아나서게 1 아나오려는 1 아나서었다가 1 시겠다면서 1 고오게 1 ㄴ삶의 1 나처럼 1 어살던 1 아빼면 1 어대지는 1 아놓느라고 1 어나오는가 1 아야하았지만 1 면은요 1 었을걸 1 었대메 1 ㄴ한강철교를 1 어놓고서도 1 어모으았더니 1 어가려 1 어드리면서 1 아주었으니까 1 았겠다는 1 ㄴ고개만 1 ㄴ스코어를 1 앴다고 1 고돌아오아 1 나가아 1 ㄴ코다치는 1 시오면 1 아지어최신 1 아버리었거나 1 아먹으려구 1 ㄴ데없이 1 아듣으면서 1 어쌓이는 1 어지느냐의 1 은소티에서 1 았겠지 1 어없애어도 1 았겠을 1 아두었으면 1 을밖에 1 도록하고 1 아계시었더라면 1 아보이곤 1 어맞다가 1 어지냐는 1 ㄴ따옴표로써 1 어넘기어야 1 어세우지도 1 ㄴ가에게는 1 아주시든 1 ㄴ말은 1 어내는지 1 아는데 1 아계시다고 1 굼지서 1 ㄴ나발 1 어지시었을 1"

/-- soynlp/lemmatizer/dictionary/default/Eomi/Eomi.txt:9001-9100 -/
def eomis90 : List (Str × Nat) := rows! "어주시며 1 어주지두 1 아하는가 1 어주겠다면서 1 꾸마 1 어지느냐도 1 은등근 1 ㄴ척을 1 어살리어 1 아싸았지만 1 고가았을 1 았다오아서는 1 아지는구나 1 어나가지는 1 어묶고는 1 어쌓던 1 ㄴ미 1 었었잖아 1 ㄴ만을 1 아가겠구 1 오시니 1 았다나의 1 어두고꾸역꾸역 1 는가라고 1 라느냐고 1 고받던 1 는다손점용 1 면으로 1 어나가았다가 1 어오더라도 1 시라면서 1 시겠단 1 어가겠단 1 ㄴ가만이 1 람사 1 아오았거나 1 어보랴 1 어버리나 1 어대려는 1 어라니 1 어보건데 1 어만지는 1 아보아두 1 으라하았다구 1 어다주었고 1 는이들은 1 어지어버리었다면 1 어보내라 1 다연애는 1 아먹었다가 1 느냐부터 1 아보겠다 1 아말고 1 었었다가 1 어놓았다고도 1 더라고요 1 어붙이어보려고 1 어하더라 1 어드리려 1 아받을 1 아매는 1 을껄 1 어넣었는지도 1 아쟁이고 1 ㄴ걸음을 1 ㄴ내복이 1 들 1 음직하다고 1 겠지라는 1 어담아서 1 ㄴ다면오직 1 ㄴ사과 1 었는지까지 1 아오느냐는 1 어감았던 1 였었죠 1 아신는 1 어하시며 1 어서리 1 았는디도 1 었던고 1 어지어오았으니 1 아뵙도록 1 아놓았는지 1 ㄴ콩이 1 것나 1 어누르며 1 께네 1 믄요 1 었더라만 1 어세우지 1 ㄴ개씩 1 ㄴ혁신의 1 었나보다 1 아먹었는데 1 라멸치 1 아지었는지도 1 었더냐고 1 으시리라 1 어들어가다 1"

/-- soynlp/lemmatizer/dictionary/default/Eomi/Eomi.txt:9101-9200 -/
def eomis91 : List (Str × Nat) := rows! "아지겠다는 1 아나아서보니 1 겠냐만 1 어씌우어놓은 1 게되는거 1 었겠냐 1 앗던 1 아가았느냐고 1 라버리었는데 1 어있듯이 1 었는지로 1 ㄴ담시나 1 어지겠지 1 으시라며 1 ㄴ바위와 1 은노래 1 어놓은후 1 아버리나 1 ㄴ모습을 1 어버리었으며 1 어지었었다고 1 구먼 1 ㄹ른지 1 고깊은 1 았겠나 1 야라고 1 게쉽게 1 어있을지도 1 ㄴ나이에 1 문서 1 어지더라고 1 아야하나를 1 어사 1 시려구 1 어내면서도 1 게되나 1 어식 1 어잡는 1 ㄴ것이나 1 였었으니까 1 라는데야 1 아나서지 1 ㄴ선거실천시민모임 1 았었다지 1 아먹듯 1 고싸락눈 1 어가면서 1 ㄴ집털이의 1 아잡았던 1 아나서었는지도 1 ㄴ사자는 1 아대면서도 1 어감으려는 1 다넌 1 고나에게 1 을기 1 간 1 아지려하니 1 듯하여 1 는곳도 1 었나만 1 어지어나가아 1 어문드러지어서 1 어다놓았던 1 ㄴ거리에서 1 애지게 1 아두겠다는 1 라지요 1 아하지를 1 는구만 1 아내버리고 1 ㄴ붓꽃 1 아주었듯이 1 ㄴ다니께 1 으라고만 1 더라네 1 어하는가 1 어보시먼 1 지말라 1 았냐구 1 고옷을 1 ㄴ지름의 1 라치면 1 아나가았을 1 아하았는지 1 어다버리는 1 았으면서 1 아잡숫지도 1 ㄴ다에서 1 어치시오면 1 도사도 1 더라고까지 1 어넣디끼 1 아두요 1 어보내어달라는 1 시었대 1 어내었는지 1 리라는것이 1 다시피하니까 1 었냐면 1"

/-- soynlp/lemmatizer/dictionary/default/Eomi/Eomi.txt:9201-9300 -/
def eomis92 : List (Str × Nat) := rows! "아부치어서 1 어들어가았을 1 시라고도 1 아부르어라 1 면한달 1 었지않냔 1 어주려구 1 ㄴ숟가락을 1 고있지만 1 었음 1 았으냐고까지 1 ㄴ다느니보다도 1 ㄴ음식은 1 는길고 1 아오르았다가는 1 여지거나 1 아하거든요 1 디밝았던 1 지않냔 1 아잡숫는 1 아어미에게 1 고결제시스템만 1 아버리든 1 으시었었는데 1 어번지구 1 어보 1 구부터 1 아보이듯 1 아뽑는 1 었었다고 1 ㄴ체하아서 1 는데에 1 으나젊은 1 어냈 1 고가다가는 1 어서자 1 어주시었지만 1 어주었더라도 1 고가아야 1 어두든지 1 어대아 1 ㄴ가까지 1 어보든지 1 아다놓았는지 1 어맡기고는 1 은안개의 1 든다고 1 려고나 1 ㄴ길에는 1 았다가았다하았을 1 아오았걸래 1 어지었는지가 1 ㄴ피가 1 아들이면 1 어지어있어서 1 을만도 1 아버리시면 1 어두자니 1 여서부터 1 어지겠느냐는 1 었으니만치 1 은디끼 1 어박았던가를 1 었겠는가고 1 어심어 1 구나고 1 었더라고도 1 아지시면서 1 을만 1 는가까지도 1 겠노라고도 1 ㄴ땅을 1 다라고만 1 아계시다는 1 ㄴ트랜스퍼시픽 1 ㄴ꽃과 1 아오았는지가 1 ㅁ서는 1 어씌우려는 1 아버리시었다면서 1 고오도록 1 라하여 1 어놓았을까 1 았거나를 1 아보내려 1 ㄴ다부터 1 ㄴ조사도 1 어나았다가 1 어보았거나 1 어치자는 1 ㄴ신을 1 어드리었더니 1 아나서며 1 어두었을 1 아살리지도 1 ㄴ구멍 1 게잘게 1 아보시어야 1 ㄴ쌈 1 아지로 1"

/-- soynlp/lemmatizer/dictionary/default/Eomi/Eomi.txt:9301-9400 -/
def eomis93 : List (Str × Nat) := rows! "어두고서 1 아가볍게 1 어팔고 1 어죽이든지 1 어좋은 1 아헤집었다는 1 며나는 1 아놓다시피 1 아주겠다면서 1 아들어가았다간 1 어가았으며 1 어내어지는 1 시다며 1 던걸 1 었는가만을 1 어지어가는가 1 ㄴ포격에도 1 어들어오지 1 였듯 1 겠다부터 1 았습니더 1 지않을까하아서 1 어넘기곤 1 어보려고도 1 는은 1 아보았다면 1 안 1 어아 1 다팔면서 1 시기에도 1 다놓으며 1 ㄴ집처럼 1 아주겠으면 1 고주는 1 은기독교운동의 1 어끄는 1 겠 1 어마시었을 1 ㄴ다이재연 1 아있는지를 1 다라든가 1 ㄴ음료수 1 ㄴ부분에 1 ㄴ저 1 은모루유적은 1 ㄴ꽃들을 1 자더니 1 어나오더라는 1 는자만이 1 ㄴ뼘도 1 라네 1 고나오니 1 아오았다는데도 1 ㄴ다카더만 1 아없어지는 1 어주어보겠다고 1 어나오는데 1 어쌓이아 1 어둘 1 어보기에 1 러지고 1 구올라오며 1 나싶을 1 으시다니까 1 ㄴ이들이 1 어살피어주옵소서 1 라느냐는 1 기밖에 1 었지요삶이 1 아내듯이 1 게되었는가 1 ㄴ교회는 1 어버리겠지만 1 었다가도 1 어놓느냐에 1 은봉사 1 다변을 1 어지다가도 1 어달아나고 1 아올라가는 1 니하는 1 게쯤 1 ㄴ다그 1 었어만 1 아버리겠지 1 아나가는데 1 게어떻게 1 어내리려는 1 어지지가 1 응게 1 은창자 1 는가하고 1 어나보자는 1 은점은 1 아내시어야 1 아있든지 1 어신고는 1 어오리라는 1 ㄴ번처럼 1 아오아의 1"

/-- soynlp/lemmatizer/dictionary/default/Eomi/Eomi.txt:9401-9500 -/
def eomis94 : List (Str × Nat) := rows! "어내려오았을 1 었음직도 1 였구요 1 ㄴ다사실 1 ㄴ바와 1 시었거늘 1 었겠느냔 1 며보면 1 았을지두 1 어내는가는 1 읍니다아 1 어먹으면서도 1 고늘어지면 1 아주지두 1 ㄴ얼굴을 1 고가려는 1 아지어버리곤 1 었고도 1 아먹다니 1 어죽는다는 1 어주었다지 1 아오리만큼 1 아상대적으로 1 으시었습니다만 1 었었고 1 어내리다가 1 고어느 1 어서겠거니 1 아두거니와 1 앓도 1 어가시라는 1 ㄴ년처럼 1 아보아요 1 는가김기홍 1 단들 1 아지는데에다 1 겠다라든가 1 아지어내리고 1 어보았더라면 1 은이는 1 아보라며 1 아뒹굴는 1 았었어야 1 아놓으면서 1 아신는다는 1 냐거냐 1 어나오는지조차 1 아듣었는지 1 ㄴ과부는 1 며이 1 ㄴ가정생활조차 1 ㄴ토끼 1 는다마아는 1 아지었을지도 1 어라와 1 아버리지도 1 어하게하고 1 아두었다가는 1 ㄴ다든 1 라었는데 1 어가는지는 1 은머리는 1 어지길래 1 았음 1 것다는 1 어죽이겠노라고 1 겄으면 1 ㄴ닢은 1 며느은 1 지는않지만 1 어오았었는데 1 어넘기었을 1 아다니어서도 1 아두지도 1 아먹으려 1 어가도 1 던교과서를 1 아쥐더니 1 ㄴ지에도 1 다버리듯 1 겄어요 1 거나또는 1 었다네 1 ㄹ래도 1 었냐구 1 어보시더라도 1 았을런지 1 어뼘쯤 1 어붙이어지었고 1 면서힘을 1 었는지를 1 았기에 1 ㄴ다하어 1 었던바 1 어빠지면 1 ㄴ상을 1 을까말는 1 을까보아서 1 으시시느라고 1 ㄴ틀로 1"

/-- soynlp/lemmatizer/dictionary/default/Eomi/Eomi.txt:9501-9600 -/
def eomis95 : List (Str × Nat) := rows! "어어라 1 고늘어지면서 1 어노래를 1 아돌아서가 1 아이 1 어두어야지 1 오배 1 아붙이어 1 아드리어야하겠다고 1 어오듯 1 ㄴ자를 1 시래도 1 고가도 1 아하다가도 1 아주구자 1 은깃찌르레기는 1 려하아 1 라던지 1 다하겠으나 1 고서부터는 1 아지느냐만 1 아먹으려니 1 은시절 1 으나말나하 1 았군요 1 더라면 1 ㄴ청주 1 여는 1 ㄴ변이 1 어놓았었는데 1 어가는지도 1 ㄴ지요 1 나가겠다는 1 어오았더라면 1 았는가고 1 은밤의 1 어가아버리면 1 여지잖아요 1 아가아야하겠다고 1 아라코를 1 았놓았는데 1 고만요 1 었었다면 1 아오았던가를 1 아먹으려다가 1 ㄴ손을 1 ㄴ재를 1 어지었는지의 1 어뵈어두 1 어박으며 1 어들려 1 아안을 1 ㄴ동네로 1 아서든지 1 려구만 1 어야만 1 어놓았으므로 1 어씌우는데 1 아내었더라도 1 는가운데 1 아가아지고서 1 어읽을 1 어뛰어 1 어오았다면 1 으시시겠지만 1 듯하았다가 1 다고밖에는 1 었으께 1 어가먼서 1 게보았던 1 어가라구 1 아버리거니와 1 네잉 1 어내는 1 어주시라는 1 으시시겠다고 1 게까지야 1 은빛조차 1 아보시고 1 어나오았다는데 1 으시었단 1 어보내곤 1 다가재봉틀 1 아먹넌 1 어떨어지었다고 1 겠습니다와 1 어넣더니 1 어들어와도 1 았죠마는 1 고보자 1 다안 1 아들어가거나 1 았느냐거나 1 어떨어지었을 1 았던만큼 1 ㄴ경험을 1 아서두 1 아지었을는지 1 다가았으면 1 노라면안개에 1"

/-- soynlp/lemmatizer/dictionary/default/Eomi/Eomi.txt:9601-9700 -/
def eomis96 : List (Str × Nat) := rows! "아먹으라고 1 어올리게 1 잘것없이 1 으시 1 라황치혁 1 어하길래 1 다하았자 1 ㅜ 1 아넣었을 1 어패어도 1 어지겠다고 1 아지는지부터 1 어떨어지면서 1 던거 1 어오기에 1 아보았는지도 1 ㄴ대로는 1 어달래었더니 1 어가다시피 1 기만 1 었는데두 1 게오아 1 어묵는가 1 ㄴ오태석씨가 1 아넣어주고 1 으련다 1 아넘어가고만 1 었나니 1 ㄴ시절만 1 어맞추려고 1 ㄴ힘을 1 어오고서야 1 어야하고 1 아대거나 1 여라와 1 어오시어서 1 아놓다니 1 ㄴ애는 1 아나가는데도 1 어달라하았다가 1 어담으며 1 아들어가아야지 1 아들어가지 1 ㄴ돌화살촉도 1 어가지구야 1 어대지를 1 았다오마고 1 어보이까네 1 ㄴ파로 1 ㄴ코다칠 1 은해 1 아오았더란 1 었습니까 1 ㄹ껄 1 었는지조차도 1 아주시도록 1 어터지었고 1 는다더라도 1 아지었으니까 1 아끼우어 1 았대요 1 아뜯는 1 어대어서는 1 고이 1 ㄴ경험도 1 는땅덩어리 1 ㄴ소 1 고능금들이 1 아달라던 1 거든밤마다 1 다저러다 1 며쓰러지는 1 어넘어오아 1 어오았는지를 1 어들어가았던 1 어뿜고 1 ㄴ기운을 1 어주면서까지 1 어보내었던 1 닝게 1 았다가면서 1 았능강 1 았던데다가 1 았는지만은 1 어주시거나 1 어앉히고도 1 아놓으시고 1 다가요 1 은오리들이 1 고당신 1 었더라 1 어나르었다는 1 어싸니까 1 더구나 1 어떨어지고 1 아닿게 1 ㄴ소경으로 1 어대려고 1 어하잖아 1 어쓰이는 1"

/-- soynlp/lemmatizer/dictionary/default/Eomi/Eomi.txt:9701-9800 -/
def eomis97 : List (Str × Nat) := rows! "을때는 1 어주어보았자 1 더구먼 1 고가려면 1 는사람들이 1 어들었었고 1 아들어가았다는 1 아하겠지만 1 았나며 1 은데는 1 어나가기에는 1 아오았건만 1 어주었건만 1 오리다 1 어야하겠건만 1 든가에서 1 아달라고도 1 어다니면서도 1 여지겠지 1 러젖히었는지 1 ㄴ구슬을 1 야드리어서 1 ㄴ날까지 1 어젖히자 1 랬다구 1 다주시려니 1 어올라오고 1 어오았구 1 ㄴ채가락으로만 1 았어야만 1 아가았다가 1 아주었길래 1 시겠으나 1 어물지 1 고나아도 1 어듣었든 1 어버리다니 1 어오르듯이 1 여오며 1 어나가느냐는 1 겠으면서도 1 어주어서는 1 은이가 1 ㄴ봄까지는 1 은지는 1 ㄴ캔이 1 고자시고가 1 다버리던 1 고우리 1 어붙지나 1 어당기지 1 다보니깐 1 어던지었다가도 1 어가어지고 1 아고르아를 1 아주었나 1 는구나가 1 아꿰던 1 어잡으면서 1 어야할 1 시냐 1 죠가 1 ㄴ가고까지 1 시었으리라 1 던야마모또 1 ㄴ나무를 1 어올리는데도 1 어보고서도 1 어놓았더라면 1 았는가나 1 아하시죠 1 ㄴ소녀는 1 시겠다면 1 면이 1 았까 1 으시었으면 1 어보면서도 1 어다꽂는 1 어주었으리라고 1 아신었던 1 ㄹ래다 1 아라머리를 1 어보소 1 며은 1 는것과 1 려무나 1 어주리라고는 1 어보았겠지만 1 어지어가았지만 1 다하지만 1 어있느냐에 1 냐넌 1 었겠으니 1 ㄴ순찰을 1 어나오았으며 1 ㄴ손으로 1 으시라니 1 는다기에 1 어지는지도 1 으시자마자 1"

/-- soynlp/lemmatizer/dictionary/default/Eomi/Eomi.txt:9801-9900 -/
def eomis98 : List (Str × Nat) := rows! "어묶는 1 오러 1 아세우고도 1 어있었다고 1 어두겠다는 1 겠습니다라고 1 ㄴ가래를 1 라넌 1 리는 1 ㅂ니다까지 1 어돌게 1 ㄴ지가너무나 1 시나이까 1 아놓더니만 1 로군요 1 었을수록 1 었구나남이 1 겠더라고 1 아살리느라 1 시듯이 1 ㄹ런지도 1 구마 1 자로 1 아매고 1 ㄴ행복에 1 어보시지 1 어나가기에도 1 어드리겠다는 1 어내려오고는 1 어하더라구 1 다는것은 1 ㄴ다라던가 1 어달래서 1 어먹었으면 1 으시니까 1 면서나 1 아이번 1 시려다 1 어쏟고 1 았다가았다하게 1 어오자는 1 는디끼 1 어차 1 ㄴ복합은 1 ㄴ버들 1 ㄴ눈의 1 시라든가 1 ㄴ회사의 1 아내고서 1 어살리라구 1 라보았자 1 아버리자라고 1 어놓았는데도 1 었나가 1 어내리었던 1 시었다구 1 라는것도 1 는군마는 1 다싶은 1 다바람이 1 다가야 1 어댕기다가 1 자옵시고 1 으니까는 1 어내려오았던 1 라느니보다 1 으시었으니까 1 어다주거나 1 아먹는다면 1 재도 1 ㄴ언론을 1 어살리자면 1 어넣게 1 았자니까 1 었대는 1 면우리들이 1 ㄴ년은 1 으니라고 1 었겠으며 1 자는대로 1 자눈치 1 았을런지도 1 겠는지라 1 지않다가 1 어보여주는 1 ㄴ덤불 1 겠냐면서도 1 고닳아 1 아몽골 1 ㄴ지에서 1 아놓았다고 1 고보라고 1 지않을까 1 아서니 1 ㄴ빛은 1 았는지로 1 어내치고 1 ㄴ웃음이 1 아입느라고 1 았기 1"

/-- soynlp/lemmatizer/dictionary/default/Eomi/Eomi.txt:9901-10000 -/
def eomis99 : List (Str × Nat) := rows! "어나가려다 1 아하시더니 1 었냐싶으리만치 1 다팔는데 1 어제끼었고 1 오하고 1 시기에는 1 어지려나 1 니의 1 어다니지도 1 다드리지 1 고서태양 1 어주시었다고 1 었대지 1 어싸서 1 아서야만이 1 재두 1 러가이 1 ㄴ바다에 1 ㄴ바람은 1 ㄴ짓만 1 아버리었단 1 어다주네 1 아걸고 1 ㄴ가에만 1 았노라니 1 ㄴ집까지 1 고오았으니 1 ㄴ필사의 1 아나지 1 ㄴ줄로 1 아하건대 1 었다니깐요 1 아뵈었다는 1 누 1 ㄴ돈은 1 았더냔 1 어가냐는 1 겠느냐고까지 1 라손 1 어넣어지어야 1 고나가아 1 겄지만서도 1 어다대며 1 ㄴ것에게 1 아놓을까 1 어지었다든가 1 았것다 1 는다는것이 1 아나오았다는 1 아하는지는 1 은사람 1 곤하아 1 아들어오아서 1 어제끼니 1 고나오면 1 라구요 1 시더래도 1 려지는 1 았다오라고 1 옵게도 1 었는가김병도 1 으려들지 1 아뿌았는데 1 어심는 1 우며 1 ㄴ지루 1 아놓았으면 1 어놓았을지도 1 아내었다간 1 아달라는데 1 아넘기어서는 1 여져 1 였드라면 1 어지나가며 1 ㄴ껍데기 1 어입던 1 자는데도 1 어주리라던 1 다는진리를 1 ㄴ가로부터의 1 아들이어야 1 랠까보아 1 었다감았다 1 러나가았던 1 아오르면 1 았었던가도 1 았던것도 1 면무덤 1 아오더라는 1 은자형을 1 아내었으면 1 구나하곤 1 어다니자 1 ㄴ에다 1 다바치고 1 ㄴ불에 1 어버리어야지 1 어오르자 1 았다오아야만 1"

/-- soynlp/lemmatizer/dictionary/default/Eomi/Eomi.txt:10001-10100 -/
def eomis100 : List (Str × Nat) := rows! "ㄴ병들이 1 니에의 1 어올라오았던 1 아나오지 1 ㄴ대자로 1 아오지나 1 아드리러 1 ㄴ김치가 1 아나가자 1 아나가자니 1 아빠지었다고 1 여지지가 1 자마다 1 아지는지도 1 은방귀 1 아서만큼이나 1 였냐 1 아야하니 1 아나가넌 1 어지어오았지만 1 다그 1 았다싶은 1 어올리었더니 1 시지가 1 었을런지도 1 어내었어야 1 고비로소 1 아담은 1 자면야 1 었다더라고 1 어모으려고 1 다꾸나 1 어나가고는 1 더니마난 1 였느니 1 어보이면서도 1 었대는데 1 으라지만 1 어달오혹 1 ㄴ병류 1 아먹어주는 1 어하시었구나 1 아주던지 1 을텐데 1 었다하아서 1 으랴나 1 겠느냐고는 1 어보이어서 1 다에다가 1 어두었으나 1 어야되는 1 아내고도 1 어부수고 1 아지었기에 1 어맡고 1 어나았는지 1 어가는정녕 1 고까불어도 1 ㄴ잔만 1 어죽을지언정 1 아오르되 1 어두지만 1 ㄴ대접에 1 ㄴ형기가 1 ㄴ머리카락이 1 어보이 1 아오르는데도 1 아지어나오아 1 어가라는 1 어라도 1 어지어한국에서도 1 어주느냐에 1 고접어서 1 아지어가았고 1 면에 1 아서라두 1 그던 1 아먹다가 1 았소 1 더룩 1 어오겠다는 1 아들어가았다 1 면서만도 1 아잡으며 1 아놓기에 1 아놓고보니 1 ㄴ다서쪽에서빛살이 1 라고야 1 더라카아도 1 어받으면서부터는 1 고하아 1 어대 1 어하시라는 1 게어렵게 1 시는지는 1 았었던지 1 ㄴ잠 1 었었으니까 1 는가와는 1 았을까말까 1"

/-- soynlp/lemmatizer/dictionary/default/Eomi/Eomi.txt:10101-10200 -/
def eomis101 : List (Str × Nat) := rows! "아보이면서 1 마는 1 아주 1 ㄴ가보다고 1 어오르다 1 아하리라고는 1 여지드라구 1 아뵙면서 1 어놓았으면 1 아다드리라고 1 ㄴ사람이 1 아넘기니까 1 으세요 1 어나았을 1 어야겠다며 1 었는데두 1 ㄴ칸을 1 을힘을 1 ㄴ종아리근 1 시어요가 1 다너는 1 아버리는데 1 어내려오면서도 1 어주자마자 1 였던지 1 아다니니 1 어지어나오며 1 아지었어도 1 는중에 1 ㄴ지만큼은 1 어묻고 1 ㄴ다란 1 죠오직 1 으시리오땅을 1 어차이며 1 아주시었는데도 1 어들어가면서 1 어대려면 1 ㄴ값으로 1 지않어 1 아야되니 1 어감았다 1 고자하거든 1 는겨 1 어살리려고 1 아하는지도 1 아보았습니다만 1 잖것냐는 1 어내리어오아 1 라윤대녕 1 였거니 1 아들어서려 1 어지어야하는지 1 시래 1 여되는 1 았어야만이 1 아나오려고 1 ㄴ줄다리기로 1 아라가 1 ㄴ공기에 1 어두라니 1 어내자마자 1 어받거나 1 어지면서는 1 것다만 1 어가아버리고 1 어치우게 1 어보는지 1 았건 1 아지려는지는 1 라드냐 1 어보내는데 1 어대었자 1 었드라 1 어지어나오고 1 락이란 1 는간는 1 시더라두요 1 았었던가는 1 ㄴ과부 1 얐다만 1 어죽었을지도 1 어서조차도 1 어하았거나 1 다느니보다 1 았지만은 1 고들어가지 1 았었다니 1 을려다 1 애하뎅이만 1 았다오았을까보아 1 며들판에 1 아오랴 1 았었다는데 1 아하더라도 1 어없애어야 1 라고하았다드니 1 었겠수 1 어지었는가가 1 아주시어도 1"

/-- soynlp/lemmatizer/dictionary/default/Eomi/Eomi.txt:10201-10300 -/
def eomis102 : List (Str × Nat) := rows! "고나는 1 은아이 1 든말든 1 아보시는 1 ㄴ답시는 1 아지면은 1 아라눈을 1 러오았다는 1 어내려가았으니 1 ㄴ것들까지 1 어다대는 1 어들었는지에 1 어두다가는 1 지않기에 1 라하시어도 1 아내었느냐가 1 겠대서 1 겠습니다가 1 것응께 1 어찾고 1 ㄴ통이 1 어갖던 1 다놓지 1 어들게끔 1 었어야지 1 어모으어다가 1 어보는것은 1 어세우어서 1 아오듯 1 어두어서도 1 아헤매고 1 어놓이지를 1 어묵었을 1 ㄴ배에게 1 은말 1 아쓰고 1 게느리게 1 면백스윙을 1 고가려 1 더랬지 1 아먹을까 1 ㄴ스튜는 1 으어 1 어있다니 1 았을지가 1 ㄴ밤과 1 어쓰었더니 1 쿠노 1 더니그 1 서가 1 ㄴ해와는 1 어비로소 1 지이 1 어주었는데도 1 아서유방이 1 어놓기에는 1 ㄴ시절이 1 아먹느라구 1 어주마고 1 시오라고는 1 어가려느냐는 1 시니까라는 1 을지나 1 라고두 1 어불고는 1 여내었는지 1 아버리어요 1 어다니시는 1 어놓구서두 1 았다가입술 1 라하는데 1 시어서는 1 은것으로 1 아나가았고 1 자고까지 1 아버리시니까 1 어하았을지 1 ㄴ다는데요 1 은풍월 1 어주시니까 1 게나오는 1 ㄴ캐릭터들이 1 고오았다는 1 어내려오다 1 아다가도 1 아먹겠다고 1 아야제 1 노라고는 1 어있노라면 1 ㄴ불만 1 아있었을 1 어주리란 1 라하았는 1 어맞는 1 는다고밖에 1 어다놓았는데 1 아지어오고 1 시었던데 1 는데를 1 아야되는지 1"

/-- soynlp/lemmatizer/dictionary/default/Eomi/Eomi.txt:10301-10329 -/
def eomis103 : List (Str × Nat) := rows! "십시사 1 어오니 1 였다가 1 었더라고 1 아보겠냐고 1 어먹건만 1 을거리 1 는이보다 1 었대는데 1 지않더니만 1 아버리고만 1 며까지 1 일 1 랴니께 1 았겠는가라는 1 고쫓기는 1 아들어오았을 1 대더라 1 아부치기에 1 아내겠다고 1 넌다구 1 ㄴ대문 1 어내느냐에 1 었었는지도 1 다라고까지 1 아다주고 1 았다넌디 1 았대메 1 아맞추어지어 1"

/-- the parts of soynlp/lemmatizer/dictionary/default/Eomi/Eomi.txt in order. -/
def eomisParts : List (List (Str × Nat)) := [eomis0, eomis1, eomis2, eomis3, eomis4, eomis5, eomis6, eomis7, eomis8, eomis9, eomis10, eomis11, eomis12, eomis13, eomis14, eomis15, eomis16, eomis17, eomis18, eomis19, eomis20, eomis21, eomis22, eomis23, eomis24, eomis25, eomis26, eomis27, eomis28, eomis29, eomis30, eomis31, eomis32, eomis33, eomis34, eomis35, eomis36, eomis37, eomis38, eomis39, eomis40, eomis41, eomis42, eomis43, eomis44, eomis45, eomis46, eomis47, eomis48, eomis49, eomis50, eomis51, eomis52, eomis53, eomis54, eomis55, eomis56, eomis57, eomis58, eomis59, eomis60, eomis61, eomis62, eomis63, eomis64, eomis65, eomis66, eomis67, eomis68, eomis69, eomis70, eomis71, eomis72, eomis73, eomis74, eomis75, eomis76, eomis77, eomis78, eomis79, eomis80, eomis81, eomis82, eomis83, eomis84, eomis85, eomis86, eomis87, eomis88, eomis89, eomis90, eomis91, eomis92, eomis93, eomis94, eomis95, eomis96, eomis97, eomis98, eomis99, eomis100, eomis101, eomis102, eomis103]

/-- all rows of soynlp/lemmatizer/dictionary/default/Eomi/Eomi.txt in order. -/
def eomis : List (Str × Nat) := eomisParts.flatten
end Data
