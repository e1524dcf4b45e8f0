import Verif.Model.TspData
import Verif.Proofs.TspBound

/-! Bounds of the tours of `TSP439`: prices and clusters for the lower bound, and a short tour (generated data; only the checks matter). -/

namespace Gapp.Proofs.TspBound

open Gapp.Model

set_option maxRecDepth 100000

/-- Clusters for `TSP439`. -/
def tree439 : NatTree :=
  (.node 13877497 (.node 13876481 (.node 13643294 (.node 13494582 (.leaf 437 1775 5375 8305424) (.node 12685827 (.leaf 433 1975 4025 9564728) (.node 11271319 (.node 11139324 (.node 11105695 (.node 11045692 (.node 10869124 (.leaf 343 4650 6575 9748302) (.node 10678044 (.leaf 342 5050 6575 9782574) (.leaf 341 5175 6650 9685155))) (.leaf 283 4425 6875 9581006)) (.leaf 340 5675 6650 9709150)) (.node 11137083 (.node 11130728 (.node 11126716 (.node 10989838 (.leaf 282 4425 7275 9679653) (.leaf 227 4550 7425 9525765)) (.leaf 228 4800 7425 9597518)) (.node 11111760 (.node 9805789 (.node 9677209 (.leaf 420 7900 3200 10185946) (.node 9170732 (.leaf 419 8125 3000 10437884) (.leaf 418 8275 3000 10541384))) (.leaf 413 7900 3350 10158265)) (.node 11103017 (.node 11016859 (.node 10841039 (.leaf 226 4550 7825 9743453) (.leaf 225 4800 7825 9665508)) (.node 10366656 (.leaf 185 4900 8500 10000000) (.node 10238687 (.leaf 148 5150 8750 9986897) (.node 8082167 (.node 7866784 (.leaf 84 4525 10125 11284796) (.leaf 83 4750 10125 11073420)) (.leaf 82 4975 10125 11069413))))) (.node 10536281 (.node 10400000 (.node 10318740 (.node 10317964 (.node 10308236 (.node 10266111 (.node 10235443 (.node 10098792 (.leaf 75 9175 10275 9986407) (.leaf 74 9275 10275 10014801)) (.leaf 60 9150 10425 9930219)) (.node 10256901 (.node 10141044 (.node 10088023 (.node 10030370 (.leaf 86 8950 10000 10084827) (.leaf 85 8750 10000 10084803)) (.leaf 77 8750 10200 10027174)) (.leaf 76 8950 10200 9974129)) (.node 10202360 (.leaf 59 9050 10425 9903670) (.leaf 58 8950 10425 9993970)))) (.leaf 57 8600 10500 10000000)) (.node 10238834 (.node 10234473 (.node 10223723 (.node 10150000 (.node 10074561 (.leaf 81 7600 10275 10075439) (.leaf 80 7750 10275 10000000)) (.node 10030169 (.leaf 79 7900 10275 10000000) (.leaf 78 8050 10275 10119831))) (.node 10212482 (.node 10195543 (.leaf 55 7425 10450 9948325) (.leaf 54 7325 10450 9956132)) (.node 10169386 (.leaf 53 7225 10450 9931386) (.leaf 52 7125 10450 9999228)))) (.leaf 56 8300 10500 9982036)) (.node 9973375 (.leaf 51 7125 10900 10112985) (.node 9967024 (.node 9966908 (.leaf 50 7125 10750 10061938) (.node 9963582 (.node 9963078 (.node 9959680 (.leaf 49 7225 10750 10071154) (.node 9955579 (.leaf 47 7325 10750 10069166) (.node 9951842 (.node 9949499 (.node 9927209 (.node 9906961 (.leaf 48 7375 10900 10133359) (.leaf 45 7500 11000 10119758)) (.node 9923154 (.leaf 44 7625 10975 10080508) (.node 9909026 (.leaf 42 7725 10975 10096338) (.node 9836422 (.leaf 40 7825 10975 10094636) (.leaf 39 7925 10975 10168942))))) (.node 9945608 (.leaf 46 7425 10750 10075255) (.node 9935837 (.node 9863027 (.leaf 43 7600 10775 10155913) (.leaf 41 7750 10775 10131060)) (.leaf 38 7900 10775 10083103)))) (.leaf 37 8050 10775 10115055)))) (.node 9951349 (.node 9851479 (.leaf 36 8275 10900 10179257) (.leaf 35 8400 10900 10094264)) (.leaf 34 8525 10900 10079387))) (.node 9959644 (.node 9951988 (.node 9943699 (.leaf 33 8650 10900 10082031) (.node 9932503 (.leaf 32 8750 11000 10115691) (.node 9919860 (.leaf 16 8750 11200 10151806) (.leaf 15 8650 11300 10069755)))) (.node 9930180 (.leaf 14 8525 11300 10103257) (.node 9861897 (.leaf 13 8400 11300 10091563) (.leaf 12 8275 11300 10171540)))) (.leaf 11 8150 11125 10083874)))) (.node 9966913 (.leaf 10 8050 11125 10049102) (.node 9960794 (.node 9936726 (.leaf 9 8050 11225 10083985) (.node 9916479 (.leaf 8 7925 11275 10113918) (.leaf 7 7825 11275 10069603))) (.node 9939832 (.node 9928616 (.node 9895702 (.leaf 6 7725 11275 10069603) (.leaf 5 7625 11275 10134695)) (.leaf 4 7500 11200 10082462)) (.node 9939436 (.node 9928763 (.leaf 2 7225 11150 10066647) (.node 9927349 (.leaf 3 7375 11300 10137784) (.leaf 0 7125 11300 10184867))) (.leaf 1 7225 11050 10093917))))))))) (.leaf 61 9350 10600 10000000)) (.leaf 31 9350 11000 10000000)) (.node 10451048 (.node 10134629 (.leaf 30 9850 10850 9985714) (.leaf 29 9900 10975 10014286)) (.node 10445784 (.node 10435789 (.node 10341144 (.node 8656328 (.node 8132308 (.node 7752235 (.node 6978980 (.leaf 430 13225 2325 11705235) (.leaf 428 13225 2525 11515785)) (.leaf 427 13225 2925 11131980)) (.leaf 417 13225 3125 10935712)) (.node 8442629 (.leaf 416 13225 3500 10782960) (.node 8070433 (.leaf 404 13225 3700 10974411) (.node 7341557 (.leaf 403 13225 4075 11330156) (.leaf 401 13225 4275 11528287))))) (.node 8806245 (.leaf 415 10850 3525 10614565) (.leaf 414 10650 3525 10779190))) (.node 10426886 (.node 10425454 (.leaf 400 11350 4650 9881200) (.node 10331654 (.leaf 387 11350 4875 9918346) (.node 10210944 (.node 10150000 (.leaf 386 11200 5075 10000000) (.leaf 385 11050 5075 10000000)) (.leaf 384 10950 5300 10035277)))) (.leaf 399 11350 4425 9916914))) (.node 10409048 (.node 10382119 (.node 10377696 (.leaf 377 10950 5800 10018939) (.node 10375091 (.node 10331487 (.leaf 368 10800 6125 9961310) (.leaf 367 10950 6075 9865316)) (.node 10370133 (.leaf 366 11100 6075 9909593) (.node 10335461 (.node 10225163 (.leaf 365 11050 6325 9975224) (.leaf 364 10950 6325 9899613)) (.leaf 363 10850 6325 9864926))))) (.node 10362298 (.leaf 362 10750 6325 9852955) (.node 10321866 (.leaf 361 10650 6325 9884747) (.node 10288916 (.node 10195952 (.leaf 369 10300 6125 10137853) (.leaf 359 10450 6325 9916195)) (.leaf 360 10550 6325 9893387))))) (.node 10408051 (.node 10403068 (.node 10323970 (.node 10321258 (.node 10320962 (.node 10319696 (.node 10290306 (.node 10252191 (.node 10207852 (.leaf 271 11450 7200 9952702) (.leaf 270 11550 7200 9939446)) (.leaf 269 11650 7200 9908363)) (.leaf 268 11750 7200 9901331)) (.leaf 267 11850 7200 9878973)) (.node 10318231 (.node 10298671 (.leaf 266 11950 7200 9900065) (.node 10255959 (.leaf 265 12050 7200 9901264) (.leaf 264 12150 7200 9942777))) (.leaf 263 12325 7150 9920994))) (.node 10320705 (.node 10246235 (.node 10241866 (.leaf 262 12500 7200 9939750) (.leaf 261 12600 7200 9918384)) (.node 10177431 (.leaf 260 12700 7200 9935381) (.leaf 259 12800 7200 9987188))) (.node 10308200 (.node 10300788 (.leaf 258 13025 7200 9917107) (.leaf 257 13125 7200 9882105)) (.node 10247434 (.leaf 256 13225 7200 9909695) (.leaf 255 13325 7200 9942871))))) (.node 10322057 (.node 10314626 (.leaf 315 13400 7025 9917521) (.node 10219674 (.leaf 254 13500 7250 9915161) (.leaf 253 13625 7150 10025243))) (.node 10316847 (.node 10315756 (.node 10311575 (.node 10303356 (.node 10223085 (.node 10221020 (.node 10188631 (.node 10184507 (.leaf 331 11425 6575 10032307) (.leaf 330 11575 6575 9933186)) (.leaf 329 11575 6675 9959339)) (.leaf 328 11675 6575 9945794)) (.node 10162664 (.node 10133890 (.node 10087572 (.leaf 327 11850 6575 10006121) (.leaf 326 11975 6575 10031307)) (.node 10125000 (.node 10040197 (.leaf 325 12225 6575 10084803) (.leaf 324 12350 6575 10000000)) (.leaf 323 12475 6575 10000000))) (.leaf 322 12600 6575 9962336))) (.node 10296974 (.leaf 321 12725 6675 9894386) (.node 10156282 (.leaf 320 12850 6575 9968718) (.node 10111019 (.leaf 319 12975 6575 10000000) (.node 9942042 (.leaf 318 13125 6525 10047094) (.node 9705240 (.leaf 317 13275 6575 10168977) (.leaf 316 13400 6525 10260412))))))) (.node 10307674 (.leaf 314 13275 6975 9895051) (.node 10307533 (.node 10304951 (.node 10299195 (.node 10290499 (.node 10289098 (.node 10264049 (.leaf 313 13125 7025 9955388) (.leaf 312 12975 6975 9938676)) (.leaf 311 12850 6975 9897226)) (.node 10285974 (.leaf 310 12725 6875 9972353) (.leaf 309 12600 6975 9901751))) (.node 10295358 (.leaf 308 12475 6975 9924054) (.node 10272070 (.leaf 307 12350 6975 9905588) (.leaf 306 12225 6975 9947342)))) (.node 10113688 (.leaf 305 11975 6975 9997707) (.leaf 304 11850 6975 10013605))) (.leaf 303 11675 6825 9909350)))) (.leaf 302 11575 6825 9874894)) (.node 10300217 (.leaf 301 11575 6925 9908259) (.leaf 300 11425 6975 9949637))))) (.node 10356039 (.node 10348281 (.node 10347988 (.node 10028981 (.leaf 223 11000 7775 10178133) (.leaf 222 11225 7725 10023374)) (.node 10346768 (.node 10322754 (.node 10316066 (.node 10271563 (.leaf 252 13625 7550 9963294) (.node 10264507 (.leaf 250 13500 7675 9929979) (.leaf 208 13625 7725 9940143))) (.leaf 251 13500 7450 9880718)) (.leaf 249 13375 7675 9872267)) (.node 10344414 (.node 10341806 (.leaf 221 11550 7725 9953638) (.node 10310441 (.node 10289679 (.node 10188775 (.leaf 220 11850 7725 10004556) (.leaf 219 11975 7725 9931669)) (.leaf 218 12100 7725 9903652)) (.node 10284937 (.leaf 217 12225 7725 9910907) (.leaf 216 12350 7725 9929156)))) (.node 10338733 (.leaf 215 12475 7825 9886508) (.node 10337177 (.node 10302341 (.node 10240503 (.node 10238287 (.leaf 214 12600 7725 9934837) (.leaf 213 12725 7725 9951876)) (.leaf 212 12850 7725 9932621)) (.leaf 211 12975 7725 9890038)) (.node 10288137 (.leaf 210 13100 7725 9897785) (.leaf 209 13225 7725 9939078))))))) (.node 10346748 (.node 10250017 (.node 10234662 (.leaf 248 13325 7500 9953003) (.leaf 247 13225 7500 9912335)) (.node 10187855 (.leaf 246 13125 7500 9937648) (.leaf 245 13025 7500 9974497))) (.node 10346296 (.node 10345095 (.node 10286068 (.leaf 244 12800 7500 9903755) (.node 10279289 (.leaf 243 12700 7500 9910177) (.node 10242789 (.leaf 242 12600 7500 9910534) (.leaf 241 12500 7500 9946677)))) (.node 10344126 (.leaf 240 12325 7550 9890230) (.node 10344072 (.node 10278709 (.node 10220685 (.leaf 239 12150 7500 9947646) (.leaf 238 12050 7500 9931669)) (.leaf 237 11950 7500 9889622)) (.leaf 236 11850 7500 9866306)))) (.node 10296630 (.leaf 235 11750 7500 9887398) (.node 10277714 (.leaf 234 11650 7500 9915972) (.node 10249456 (.leaf 233 11550 7500 9906314) (.leaf 232 11450 7500 9944230))))))) (.node 10355508 (.node 10100995 (.node 9702387 (.leaf 73 10250 10125 10312310) (.leaf 72 10250 10325 10185303)) (.leaf 62 10200 10600 9993210)) (.node 10355481 (.node 10355467 (.node 10355463 (.node 10355454 (.node 10306797 (.node 10306796 (.node 10306660 (.leaf 121 12525 9325 9957726) (.node 10264303 (.node 10260487 (.leaf 120 12350 9275 9917616) (.leaf 118 12250 9275 9921897)) (.node 10241029 (.leaf 117 12150 9275 9913800) (.leaf 115 12050 9275 9945171)))) (.node 10086209 (.leaf 113 11850 9375 9971639) (.leaf 112 11725 9325 10076781))) (.node 10306764 (.node 10306755 (.node 10287295 (.node 10214084 (.node 10191136 (.node 10191016 (.node 10185571 (.node 10185548 (.node 10175024 (.node 10155491 (.node 10060672 (.leaf 207 13625 8125 10095183) (.leaf 206 13500 8175 9978774)) (.leaf 205 13375 8175 9990735)) (.leaf 204 13225 8125 9992354)) (.leaf 202 13100 8125 9947098)) (.node 10185571 (.node 10180504 (.node 10161979 (.leaf 203 13100 8275 10017319) (.node 10132768 (.node 10080665 (.leaf 173 13250 8350 9988407) (.leaf 172 13250 8450 10030928)) (.leaf 171 13350 8350 9977725))) (.leaf 170 13475 8325 9969246)) (.node 10185513 (.node 10181764 (.node 10180118 (.leaf 201 12975 8125 9992330) (.leaf 200 12850 8125 9952552)) (.node 10181103 (.node 10180910 (.node 10107173 (.leaf 199 12725 8125 9990684) (.leaf 198 12600 8125 10027143)) (.leaf 197 12475 8025 9952025)) (.node 10174456 (.node 10152278 (.leaf 196 12350 8125 10026950) (.leaf 195 12225 8125 9945772)) (.node 10159670 (.leaf 194 12100 8125 10004772) (.node 10137626 (.leaf 193 11975 8125 9960558) (.leaf 192 11850 8125 10026816)))))) (.node 10185453 (.node 10179279 (.leaf 191 11775 8275 9955350) (.node 10135970 (.leaf 190 11550 8125 10087636) (.leaf 183 11650 8325 10000000))) (.node 10182254 (.node 10182202 (.node 10180444 (.leaf 182 11900 8325 9993826) (.node 10178545 (.node 10157606 (.node 10148278 (.leaf 181 12025 8425 9985808) (.leaf 180 12150 8400 9993389)) (.leaf 179 12275 8325 9994778)) (.leaf 178 12400 8425 9986755))) (.node 10176796 (.leaf 177 12525 8325 9991121) (.leaf 176 12650 8425 9992161))) (.node 10118521 (.leaf 175 12850 8325 10049191) (.leaf 174 12975 8425 9992366))))))) (.node 10156227 (.node 10032749 (.node 9949007 (.leaf 169 13600 8500 10054796) (.leaf 167 13700 8500 10096197)) (.leaf 168 13600 8600 10012455)) (.leaf 165 13475 8725 10008094))) (.node 10186919 (.node 10152182 (.leaf 163 13375 8875 9981015) (.leaf 162 13250 8875 9991803)) (.node 10177203 (.leaf 161 13100 8775 10001555) (.node 10177189 (.node 10177142 (.node 10177044 (.node 10177030 (.node 10107775 (.leaf 160 12975 8625 10016498) (.leaf 159 12850 8725 10035805)) (.node 10176514 (.leaf 158 12650 8625 10010771) (.leaf 157 12525 8725 9972793))) (.node 10145640 (.leaf 156 12400 8625 10010241) (.node 10141577 (.leaf 155 12275 8725 10004197) (.node 10134130 (.leaf 154 12150 8650 9999999) (.leaf 153 12025 8625 9993346))))) (.node 10170089 (.leaf 152 11900 8725 9989590) (.node 10151450 (.node 10113879 (.leaf 150 11775 8775 9974950) (.leaf 149 11650 8725 10045800)) (.node 10119852 (.leaf 151 11850 8875 9998427) (.leaf 142 11725 8925 10016350))))) (.node 10177026 (.node 10145826 (.node 10052010 (.leaf 141 12050 8975 10047990) (.leaf 140 12150 8975 10000000)) (.node 10145826 (.leaf 139 12250 8975 9954174) (.node 10142182 (.leaf 138 12350 8975 10000000) (.leaf 137 12525 8925 10039820)))) (.node 10169005 (.node 10085300 (.leaf 136 12775 8975 10038104) (.leaf 135 12875 8975 9976596)) (.node 10122817 (.leaf 134 12975 8975 9954399) (.leaf 133 13075 8975 10022784)))))))) (.node 10206617 (.leaf 166 13625 8875 9988492) (.leaf 164 13500 8875 9929891))) (.node 10193846 (.node 9997024 (.node 9779637 (.leaf 132 13625 9375 10224213) (.leaf 131 13500 9375 10121150)) (.leaf 130 13375 9375 10006826)) (.leaf 129 13250 9375 9924328))) (.node 10306751 (.node 10306656 (.node 10306191 (.node 10273489 (.leaf 124 12875 9425 9942025) (.leaf 122 12750 9425 9909486)) (.leaf 100 12600 9575 9996455)) (.node 10300739 (.node 10216306 (.leaf 128 13075 9275 9970409) (.leaf 126 12975 9275 9913285)) (.node 10282428 (.leaf 125 12875 9275 9885976) (.leaf 123 12775 9275 9931596)))) (.node 10306575 (.leaf 99 12600 9775 9896753) (.node 10306339 (.leaf 127 13125 9475 9928995) (.node 10292963 (.leaf 98 13000 9550 9910439) (.node 10117643 (.node 9961868 (.leaf 97 13000 9800 10046598) (.leaf 96 13125 9875 10137307)) (.node 10116196 (.leaf 95 12875 9925 10000000) (.leaf 94 12750 9925 10008804)))))))) (.node 10306744 (.node 10272903 (.node 10254373 (.node 10224690 (.leaf 119 12350 9475 9965965) (.leaf 116 12225 9475 9934345)) (.leaf 114 12100 9475 9936282)) (.leaf 102 11975 9550 9936588)) (.node 10139105 (.leaf 101 11975 9800 10006668) (.node 10065977 (.node 10000236 (.leaf 93 12350 9875 10065741) (.leaf 92 12225 9875 10059023)) (.leaf 91 12100 9875 10000000)))))) (.node 10355421 (.leaf 189 11225 8125 9881910) (.node 10288049 (.node 10230802 (.node 10211221 (.leaf 147 10800 8975 9945933) (.node 10203680 (.leaf 184 11000 8575 10265784) (.leaf 144 10900 8975 9942846))) (.leaf 146 10800 9075 9923265)) (.node 10285045 (.node 10197994 (.leaf 145 10850 9200 9923315) (.leaf 143 10975 9200 10003691)) (.node 10272975 (.node 9911192 (.leaf 111 10575 9250 10071148) (.node 9766286 (.leaf 110 10475 9250 10117660) (.leaf 109 10375 9250 10216054))) (.node 9912917 (.leaf 108 10850 9600 10100989) (.leaf 107 10975 9600 10111094))))))) (.node 10212954 (.node 10208229 (.leaf 106 11375 9700 9945726) (.leaf 105 11475 9700 9946045)) (.node 10212925 (.leaf 104 11575 9700 9941001) (.leaf 103 11675 9700 9946074)))) (.node 10353759 (.leaf 63 10700 10600 9986494) (.node 10323823 (.node 10323791 (.node 10316650 (.node 10213903 (.node 10211613 (.node 10203373 (.node 10185199 (.node 10148096 (.leaf 90 11675 10000 9998403) (.leaf 89 11575 10000 9953501)) (.node 10177349 (.node 10139920 (.leaf 88 11475 10000 9961300) (.leaf 87 11375 10000 9998780)) (.node 10163316 (.leaf 71 11375 10175 9998871) (.leaf 70 11525 10125 9995926)))) (.leaf 69 11650 10125 9925699)) (.leaf 68 11775 10250 10039464)) (.leaf 67 11775 10450 9946633)) (.node 10186973 (.leaf 66 11650 10625 9951772) (.node 10087379 (.leaf 65 11525 10625 9986255) (.leaf 64 11375 10575 10084479)))) (.node 10319674 (.leaf 21 11525 10850 9904967) (.node 10287998 (.leaf 20 11575 10975 9909988) (.node 9815509 (.leaf 19 11975 10975 10202014) (.node 9703768 (.leaf 18 12075 10800 10184033) (.leaf 17 12475 10800 10512199)))))) (.node 10318870 (.leaf 24 11000 10975 10139981) (.node 10315120 (.leaf 23 11425 10850 9871206) (.leaf 22 11400 10975 9941149)))))) (.node 10293751 (.leaf 28 10250 10850 9906212) (.node 10286027 (.leaf 27 10300 10975 9934666) (.node 10180610 (.leaf 26 10375 10850 9925025) (.leaf 25 10475 10850 9994365)))))))) (.node 10296384 (.node 10279588 (.node 10264938 (.node 10248124 (.node 10239299 (.node 10202153 (.leaf 338 10450 6625 9974757) (.leaf 337 10550 6625 9923090)) (.node 10231477 (.leaf 336 10650 6625 9937611) (.leaf 335 10750 6625 9930912))) (.leaf 334 10850 6625 9920964)) (.leaf 333 10950 6625 9914098)) (.leaf 332 11050 6625 9906314)) (.node 10247930 (.node 10224424 (.node 10202298 (.node 10200962 (.node 10197475 (.node 10148946 (.leaf 299 11050 6825 9997302) (.leaf 298 10950 6825 9953752)) (.leaf 297 10850 6825 9948773)) (.leaf 296 10750 6825 9950265)) (.leaf 295 10650 6825 9947437)) (.leaf 294 10550 6825 9928139)) (.node 10241995 (.leaf 293 10450 6825 9923931) (.node 10100000 (.node 10022904 (.node 9888830 (.leaf 278 10450 7125 10134074) (.leaf 277 10550 7125 10077096)) (.leaf 276 10650 7125 10000000)) (.node 10100000 (.leaf 275 10750 7125 10000000) (.node 10094191 (.leaf 274 10850 7125 10000000) (.node 10047992 (.leaf 273 10950 7125 10005809) (.leaf 272 11050 7125 10046199)))))))))))))))) (.node 10783693 (.node 10656444 (.leaf 281 5425 7350 9894829) (.node 10520393 (.leaf 280 5825 7350 9848727) (.leaf 229 6150 7525 10000000))) (.node 10776190 (.node 10702412 (.node 10684677 (.node 10683340 (.node 10670427 (.node 10632975 (.leaf 339 7075 6675 9939113) (.leaf 286 7250 6900 9712955)) (.leaf 285 7250 7025 9741618)) (.node 10545172 (.leaf 284 7075 7075 9757044) (.leaf 279 7075 7175 9797784))) (.node 10456582 (.leaf 231 7075 7575 9917539) (.leaf 230 6825 7575 9875879))) (.node 10653152 (.node 10623457 (.leaf 224 6625 7950 9846709) (.node 10482461 (.leaf 188 7025 8300 10061341) (.leaf 187 6625 8300 9856198))) (.leaf 186 6150 8275 9966307))) (.node 10636285 (.node 10474092 (.node 10219182 (.node 9737501 (.leaf 389 7675 4875 10232643) (.leaf 388 7875 4875 10229856)) (.node 10198257 (.leaf 379 7625 5350 10025799) (.leaf 378 7875 5350 10025944))) (.node 10250000 (.leaf 376 7875 5850 9999964) (.leaf 375 7625 5850 10000036))) (.node 10442425 (.node 10420357 (.node 10405777 (.node 10304592 (.node 10282520 (.leaf 358 8800 6500 9920726) (.node 10282050 (.node 10279886 (.leaf 357 8750 6375 9931274) (.leaf 355 8650 6375 9888840)) (.leaf 356 8650 6500 9946754))) (.leaf 354 8550 6375 9906568)) (.node 10349909 (.node 10077096 (.leaf 292 8800 6900 10073497) (.leaf 291 8650 6900 9999407)) (.node 10348255 (.node 10247571 (.leaf 290 8350 6900 9950684) (.leaf 289 8200 6900 9951745)) (.node 10153791 (.leaf 288 7900 6900 10000000) (.leaf 287 7750 6900 9996209))))) (.node 10305912 (.node 10295723 (.leaf 353 8350 6500 9908924) (.node 10293981 (.node 10293737 (.leaf 352 8300 6375 9920744) (.leaf 350 8200 6375 9885519)) (.leaf 351 8200 6500 9945353))) (.leaf 349 8100 6375 9908569))) (.node 10357602 (.node 10356841 (.node 10356825 (.leaf 347 7850 6375 9889289) (.leaf 345 7750 6375 9853886)) (.leaf 344 7650 6375 9889273)) (.node 10351958 (.leaf 348 7900 6500 9884855) (.leaf 346 7750 6500 9913187))))))))) (.node 11222915 (.node 10661727 (.node 10613821 (.node 10359243 (.node 10139121 (.node 9025741 (.leaf 432 4675 1975 10489749) (.leaf 431 4675 1825 10634510)) (.leaf 429 4675 2550 9946130)) (.leaf 426 4675 2700 9844627)) (.node 10400000 (.node 10383740 (.node 10374839 (.node 10364221 (.leaf 425 4225 3125 10013180) (.leaf 423 4475 3000 9902107)) (.leaf 424 4475 3150 9863227)) (.node 10378736 (.node 10317391 (.leaf 410 4475 3450 9929576) (.leaf 409 4475 3300 9903033)) (.node 10197305 (.leaf 408 4225 3525 9952695) (.leaf 407 4225 3675 10000000)))) (.leaf 402 4225 4075 10000000))) (.node 10451130 (.leaf 412 4975 3450 9846592) (.node 10391883 (.node 10327705 (.leaf 422 4975 3150 9905839) (.leaf 421 4975 3000 9916456)) (.leaf 411 4975 3300 9852278)))) (.node 10939410 (.node 10342590 (.leaf 406 5950 3600 9916963) (.leaf 405 6350 3600 10140447)) (.node 10531518 (.node 10495036 (.node 10224878 (.node 10215105 (.leaf 398 6175 4675 10009291) (.leaf 391 6175 4875 9975604)) (.leaf 390 6225 5000 9934147)) (.node 10239101 (.leaf 380 6175 5400 9973929) (.node 10068154 (.leaf 374 6225 5625 10017458) (.leaf 373 6175 5750 10049017)))) (.node 10342971 (.node 10293138 (.node 10170926 (.leaf 397 5675 4675 9959117) (.node 10099322 (.leaf 396 5550 4675 9994957) (.leaf 395 5550 4475 10105721))) (.node 10284227 (.node 10273504 (.node 10228205 (.node 10180219 (.leaf 394 5550 4950 9969823) (.leaf 393 5625 5000 9940096)) (.leaf 392 5675 4875 9947745)) (.leaf 383 5550 5200 10000000)) (.node 10236496 (.leaf 382 5550 5425 9939357) (.leaf 381 5675 5400 9951622)))) (.node 10273488 (.leaf 372 5675 5750 9919465) (.node 10206046 (.leaf 371 5625 5625 9931272) (.leaf 370 5550 5675 9952820)))))))))) (.leaf 436 1875 5475 8192703)) (.leaf 435 1975 5575 8072237)) (.leaf 434 2075 5675 8191687))

/-- Prices and clusters for `TSP439`. -/
def cert439 : TspCert where
  scale := 1000
  prices := [
    184867, 93917, 66647, 137784, 82462, 134695, 69603, 69603, 113918, 83985, 49102, 83874, 171540, 91563, 103257, 69755, 151806, 512199, 184033,
    202014, -90012, -95033, -58851, -128794, 139981, -5635, -74975, -65334, -93788, 14286, -14286, 0, 115691, 82031, 79387, 94264, 179257, 115055,
    83103, 168942, 94636, 131060, 96338, 155913, 80508, 119758, 75255, 69166, 133359, 71154, 61938, 112985, -772, -68614, -43868, -51675, -17964, 0,
    -6030, -96330, -69781, 0, -6790, -13506, 84479, -13745, -48228, -53367, 39464, -74301, -4074, -1129, 185303, 312310, 14801, -13593, -25871,
    27174, 119831, 0, 0, 75439, 1069413, 1073420, 1284796, 84803, 84827, -1220, -38700, -46499, -1597, 0, 59023, 65741, 8804, 0, 137307, 46598,
    -89561, -103247, -3545, 6668, -63412, -53926, -58999, -53955, -54274, 111094, 100989, 216054, 117660, 71148, 76781, -28361, -63718, -54829,
    -65655, -86200, -78103, -34035, -82384, -42274, -90514, -68404, -57975, -114024, -86715, -71005, -29591, -75672, 6826, 121150, 224213, 22784,
    -45601, -23404, 38104, 39820, 0, -45826, 0, 47990, 16350, 3691, -57154, -76685, -76735, -54067, -13103, 45800, -25050, -1573, -10410, -6654, -1,
    4197, 10241, -27207, 10771, 35805, 16498, 1555, -8197, -18985, -70109, 8094, -11508, 96197, 12455, 54796, -30754, -22275, 30928, -11593, -7634,
    49191, -7839, -8879, -13245, -5222, -6611, -14192, -6174, 0, 265784, 0, -33693, -143802, 61341, -118090, 87636, -44650, 26816, -39442, 4772,
    -54228, 26950, -47975, 27143, -9316, -47448, -7670, -52902, 17319, -7646, -9265, -21226, 95183, -59857, -60922, -102215, -109962, -67379, -48124,
    -65163, -113492, -70844, -89093, -96348, -68331, 4556, -46362, 23374, 178133, -153291, -334492, -256547, -474235, -402482, 0, -124121, -82461,
    -55770, -93686, -84028, -112602, -133694, -110378, -68331, -52354, -109770, -53323, -89466, -89823, -96245, -25503, -62352, -87665, -46997,
    -127733, -70021, -119282, -36706, 25243, -84839, -57129, -90305, -117895, -82893, -12812, -64619, -81616, -60250, -79006, -57223, -98736, -99935,
    -121027, -98669, -91637, -60554, -47298, 46199, 5809, 0, 0, 0, 77096, 134074, -202216, -151273, -105171, -320347, -418994, -242956, -258382,
    -287045, -3791, 0, -48255, -49316, -593, 73497, -76069, -71861, -52563, -49735, -51227, -46248, -2698, -50363, -91741, -125106, -90650, 13605,
    -2293, -52658, -94412, -75946, -98249, -27647, -102774, -61324, -44612, -104949, -82479, 260412, 168977, 47094, 0, -31282, -105614, -37664, 0, 0,
    84803, 31307, 6121, -54206, -40661, -66814, 32307, -93686, -85902, -79036, -69088, -62389, -76910, -25243, -60887, -290850, -314845, -217426,
    -251698, -110727, -146114, -86813, -110711, -115145, -91431, -114481, -54647, -79256, -91076, -93432, -111160, -53246, -68726, -79274, -83805,
    -106613, -115253, -147045, -135074, -100387, -24776, -90407, -134684, -38690, 137853, -47180, -68728, -80535, 49017, 17458, 36, -36, 18939,
    25944, 25799, -26071, -48378, -60643, 0, 35277, 0, 0, -81654, 229856, 232643, -65853, -24396, -52255, -59904, -30177, 105721, -5043, -40883,
    9291, -83086, -118800, 1528287, 0, 1330156, 974411, 140447, -83037, 0, -47305, -96967, -70424, -147722, -153408, 158265, 779190, 614565, 782960,
    935712, 541384, 437884, 185946, -83544, -94161, -97893, -136773, 13180, -155373, 1131980, 1515785, -53870, 1705235, 634510, 489749, -435272,
    -1808313, -1927763, -1807297, -1694576, 0]
  tree := tree439.decode 10000000
  next := 434
  b1 := 2608313
  b2 := 2802785

/-- A short tour of `TSP439`. -/
def tour439 : List Nat := [
  434, 435, 436, 437, 433, 402, 407, 408, 410, 409, 424, 425, 423, 426, 429, 432, 431, 421, 422, 411, 412, 406, 405, 413, 420, 419, 418, 414, 415,
  430, 428, 427, 417, 416, 404, 403, 401, 399, 400, 387, 386, 385, 384, 377, 368, 367, 366, 365, 364, 363, 362, 361, 360, 369, 359, 338, 337, 336,
  335, 334, 333, 332, 299, 298, 297, 296, 295, 294, 293, 278, 277, 276, 275, 274, 273, 272, 300, 271, 270, 269, 268, 267, 266, 265, 264, 263, 262,
  261, 260, 259, 258, 257, 256, 255, 313, 312, 311, 310, 309, 308, 307, 306, 305, 304, 303, 301, 302, 329, 331, 330, 328, 327, 326, 325, 324, 323,
  322, 321, 320, 319, 318, 317, 316, 314, 315, 253, 254, 251, 252, 250, 208, 207, 206, 170, 169, 167, 168, 165, 163, 164, 166, 132, 131, 130, 129,
  127, 128, 126, 125, 123, 122, 124, 98, 97, 96, 95, 94, 99, 93, 92, 91, 101, 102, 114, 116, 119, 100, 121, 120, 118, 117, 115, 113, 112, 142, 149,
  150, 152, 151, 141, 140, 139, 138, 137, 136, 135, 134, 133, 162, 161, 160, 159, 158, 157, 156, 155, 154, 153, 181, 180, 179, 178, 177, 176, 175,
  174, 203, 173, 172, 171, 205, 204, 202, 201, 200, 199, 198, 197, 196, 195, 194, 193, 192, 182, 191, 183, 190, 221, 220, 219, 218, 217, 216, 215,
  214, 213, 212, 211, 210, 209, 249, 248, 247, 246, 245, 244, 243, 242, 241, 240, 239, 238, 237, 236, 235, 234, 233, 232, 222, 223, 189, 184, 144,
  147, 146, 143, 145, 111, 110, 109, 108, 107, 106, 105, 104, 103, 90, 89, 88, 87, 71, 70, 69, 68, 67, 17, 18, 19, 66, 65, 64, 23, 21, 20, 22, 24,
  63, 73, 72, 62, 28, 26, 25, 27, 29, 30, 31, 61, 74, 75, 60, 59, 58, 76, 86, 85, 77, 57, 56, 78, 79, 80, 81, 55, 54, 53, 52, 50, 49, 47, 46, 48, 45,
  44, 43, 41, 42, 40, 39, 38, 37, 36, 35, 34, 33, 32, 16, 15, 14, 13, 12, 11, 10, 9, 8, 7, 6, 5, 4, 3, 0, 2, 1, 51, 82, 83, 84, 148, 185, 225, 226,
  227, 282, 228, 281, 280, 229, 186, 187, 188, 224, 230, 231, 279, 284, 285, 286, 339, 287, 288, 289, 290, 291, 292, 358, 356, 357, 355, 354, 353,
  351, 352, 350, 349, 348, 346, 347, 345, 344, 375, 376, 378, 388, 389, 379, 373, 374, 380, 390, 391, 398, 397, 395, 396, 392, 394, 393, 383, 381,
  382, 371, 370, 372, 340, 341, 342, 343, 283]

/-- Bounds of the lengths of its steps. -/
def tourSteps439 : List Int := [
  800000, 141422, 141422, 141422, 1364735, 2250556, 400000, 150000, 261008, 150000, 150000, 251247, 279509, 360556, 150000, 575000, 150000, 1212694,
  150000, 150000, 150000, 986471, 400000, 1570032, 150000, 301040, 150000, 2432335, 200000, 2660945, 200000, 400000, 200000, 375000, 200000, 375000,
  200000, 1880991, 225000, 225000, 250000, 150000, 246222, 500000, 357946, 158114, 150000, 254951, 100000, 100000, 100000, 100000, 100000, 320157,
  250000, 300000, 100000, 100000, 100000, 100000, 100000, 100000, 200000, 100000, 100000, 100000, 100000, 100000, 100000, 300000, 100000, 100000,
  100000, 100000, 100000, 100000, 403888, 226385, 100000, 100000, 100000, 100000, 100000, 100000, 100000, 182003, 182003, 100000, 100000, 100000,
  225000, 100000, 100000, 100000, 265754, 158114, 125000, 160079, 160079, 125000, 125000, 125000, 250000, 125000, 230489, 141422, 100000, 150000,
  180278, 150000, 100000, 175000, 125000, 250000, 125000, 125000, 125000, 160079, 160079, 125000, 158114, 158114, 134630, 467039, 134630, 257391,
  160079, 200000, 160079, 176777, 134630, 400000, 134630, 152070, 215059, 100000, 141422, 176777, 180278, 125000, 125000, 500000, 125000, 125000,
  125000, 160079, 206156, 100000, 100000, 100000, 152070, 125000, 176777, 250000, 145774, 254951, 125000, 212133, 269259, 125000, 125000, 145774,
  250000, 145774, 125000, 125000, 269259, 261008, 182003, 100000, 100000, 100000, 223607, 134630, 400000, 213601, 134630, 134630, 158114, 223607,
  100000, 100000, 100000, 182003, 254951, 100000, 100000, 100000, 201557, 180278, 195257, 160079, 223607, 160079, 160079, 160079, 145774, 127476,
  200000, 127476, 145774, 160079, 160079, 160079, 223607, 160079, 195257, 167706, 100000, 141422, 176777, 158114, 125000, 125000, 125000, 125000,
  125000, 160079, 160079, 125000, 125000, 125000, 125000, 206156, 134630, 134630, 223607, 400000, 300000, 125000, 125000, 125000, 125000, 160079,
  160079, 125000, 125000, 125000, 125000, 125000, 158114, 182003, 100000, 100000, 100000, 225000, 100000, 100000, 100000, 182003, 182003, 100000,
  100000, 100000, 100000, 100000, 100000, 100000, 318199, 230489, 416083, 503116, 412311, 100000, 100000, 215059, 125000, 279509, 100000, 100000,
  590022, 125000, 412311, 100000, 100000, 100000, 300000, 100000, 100000, 100000, 175000, 158114, 125000, 176777, 200000, 782624, 400000, 201557,
  477625, 125000, 158114, 279509, 100000, 134630, 175000, 400000, 480235, 654313, 200000, 279509, 254951, 125000, 100000, 215059, 400000, 134630,
  522016, 400000, 333542, 100000, 152070, 100000, 100000, 225000, 200000, 200000, 200000, 335411, 300000, 336341, 150000, 150000, 150000, 247488,
  100000, 100000, 100000, 300000, 100000, 100000, 100000, 158114, 160079, 127476, 201557, 150000, 201557, 100000, 100000, 201557, 150000, 257391,
  125000, 125000, 125000, 141422, 200000, 141422, 125000, 125000, 125000, 215059, 100000, 100000, 134630, 100000, 100000, 100000, 145774, 160079,
  250000, 180278, 100000, 180278, 2285416, 225000, 225000, 1510381, 353554, 682368, 250000, 400000, 195257, 403888, 629484, 400000, 369121, 750000,
  475658, 400000, 531508, 425000, 250000, 400000, 100000, 182003, 125000, 285044, 711513, 150000, 300000, 150000, 300000, 150000, 400000, 150000,
  160079, 100000, 100000, 235850, 150000, 160079, 100000, 100000, 235850, 150000, 160079, 100000, 100000, 525595, 250000, 500000, 475000, 200000,
  477625, 1504161, 134630, 230489, 403113, 134630, 200000, 500000, 235850, 200000, 235850, 145774, 90139, 213601, 235850, 127476, 213601, 90139,
  145774, 900000, 500000, 145774, 400000, 375000, 2383800]

theorem cert439_check : cert439.check tsp439Coords = true :=
  TspCert.check_of (T := tree439) (s := 1000) (k := 10000000) rfl rfl (by decide +kernel) (by decide +kernel)

theorem cert439_bound : 105928493 ≤ cert439.bound := by decide +kernel

theorem tour439_check : tourCheck 1000 tsp439Coords tour439 tourSteps439 = true := by decide +kernel

theorem tour439_sum : tourSteps439.sum ≤ 107215402 := by decide +kernel

end Gapp.Proofs.TspBound
