import Verif.Model.Dragon

/-!
# The unit tests of the library, evaluated in the model: test_dragon.cpp, test_decode.cpp

Every check of /repo/test/unit_test/detail/test_dragon.cpp and test_decode.cpp with the result the test expects, but for
the one with 760 digits (test_dragon.cpp:58-78), which takes the kernel too long.  These are no proofs of properties: they
show that the model computes what the authors of the library expect of the code.  Doubles are given by their bits.
-/

namespace Emio.Conformance.Digits

/-- A check of a test: a double, the number of digits asked for, and the digits and the exponent expected. -/
inductive Check
  /-- `format_exact` with `significand_digits` (test_dragon.cpp:11-17, 206-213). -/
  | significand (bits : Nat) (n : Int) (digits : String) (k : Int)
  /-- `format_exact` with `decimal_point` (test_dragon.cpp:19-26, 197-204). -/
  | point (bits : Nat) (n : Int) (digits : String) (k : Int)
  /-- `format_shortest` (test_dragon.cpp:131-139). -/
  | shortest (bits : Nat) (digits : String) (k : Int)

/-- What the decoder must have found (`REQUIRE(decoded.category == category::finite)`), and the digits and the exponent
the model computes. -/
def gives (run : Finite → Pure' (Str × Int)) (bits : Nat) (digits : String) (k : Int) : Bool :=
  (decode bits).category == .finite && run (decode bits).finite () == .ok () (digits.toList, k)

/-- Whether the model does as expected. -/
def Check.passes : Check → Bool
  | .significand bits n digits k => gives (formatExact · .significandDigits n) bits digits k
  | .point bits n digits k => gives (formatExact · .decimalPoint n) bits digits k
  | .shortest bits digits k => gives formatShortest bits digits k

/-- test_dragon.cpp:43-127, 142-195, 231-266. -/
def digits : List Check := [
    .significand 4591870180066957722 40 "1000000000000000055511151231257827021182" (0),
    .point 4591870180066957722 (40) "1000000000000000055511151231257827021182" (0),
    .significand 4601778099247172813 40 "4500000000000000111022302462515654042363" (0),
    .point 4601778099247172813 (40) "4500000000000000111022302462515654042363" (0),
    .significand 4602678819172646912 40 "5000000000000000000000000000000000000000" (0),
    .point 4602678819172646912 (40) "5000000000000000000000000000000000000000" (0),
    .significand 4606732058837280358 40 "9499999999999999555910790149937383830547" (0),
    .point 4606732058837280358 (40) "9499999999999999555910790149937383830547" (0),
    .significand 4636737291354636288 40 "1000000000000000000000000000000000000000" (3),
    .point 4636737291354636288 (37) "1000000000000000000000000000000000000000" (3),
    .significand 4652002910794678272 40 "9995000000000000000000000000000000000000" (3),
    .point 4652002910794678272 (37) "9995000000000000000000000000000000000000" (3),
    .significand 4599676419421066581 40 "3333333333333333148296162562473909929395" (0),
    .point 4599676419421066581 (40) "3333333333333333148296162562473909929395" (0),
    .significand 4614256655080292474 40 "3141592000000000162174274009885266423225" (1),
    .point 4614256655080292474 (39) "3141592000000000162174274009885266423225" (1),
    .significand 4868796335060135680 40 "3141592000000000000000000000000000000000" (18),
    .point 4868796335060135680 (22) "3141592000000000000000000000000000000000" (18),
    .significand 4950912855330343670 40 "9999999999999999161139200000000000000000" (23),
    .point 4950912855330343670 (17) "9999999999999999161139200000000000000000" (23),
    .significand 9218868437227405311 40 "1797693134862315708145274237317043567981" (309),
    .point 9218868437227405311 (-269) "1797693134862315708145274237317043567981" (309),
    .significand 4503599627370496 40 "2225073858507201383090232717332404064219" (-307),
    .point 4503599627370496 (347) "2225073858507201383090232717332404064219" (-307),
    .significand 3305145957255478728 1 "9" (-87),
    .point 3305145957255478728 (88) "9" (-87),
    .significand 1131101895249690741 2 "46" (-232),
    .point 1131101895249690741 (234) "46" (-232),
    .significand 5910626004430990155 3 "141" (88),
    .point 5910626004430990155 (-85) "141" (88),
    .significand 5169556327165320908 4 "3981" (38),
    .point 5169556327165320908 (-34) "3981" (38),
    .significand 5289197412101736395 5 "41040" (46),
    .point 5289197412101736395 (-41) "41040" (46),
    .significand 8114753636809865642 6 "292084" (235),
    .point 8114753636809865642 (-229) "292084" (235),
    .significand 2788605635199231860 7 "2891946" (-121),
    .point 2788605635199231860 (128) "2891946" (-121),
    .significand 83322922250798166 8 "43787718" (-302),
    .point 83322922250798166 (310) "43787718" (-302),
    .significand 6538195998165829956 9 "122770163" (130),
    .point 6538195998165829956 (-121) "122770163" (130),
    .significand 6540705463173547763 10 "1841552452" (130),
    .point 6540705463173547763 (-120) "1841552452" (130),
    .significand 5261237760331999669 11 "54835744350" (44),
    .point 5261237760331999669 (-33) "54835744350" (44),
    .significand 8041647186118247058 12 "389190181146" (230),
    .point 8041647186118247058 (-218) "389190181146" (230),
    .significand 8037143586490876562 13 "1945950905732" (230),
    .point 8037143586490876562 (-217) "1945950905732" (230),
    .significand 5372490528939408115 14 "14460958381605" (52),
    .point 5372490528939408115 (-38) "14460958381605" (52),
    .significand 337707035473321425 15 "417367747458531" (-285),
    .point 337707035473321425 (300) "417367747458531" (-285),
    .significand 1660280866941059724 16 "1107950772878888" (-196),
    .point 1660280866941059724 (212) "1107950772878888" (-196),
    .significand 3127075010784424107 17 "12345501366327440" (-98),
    .point 3127075010784424107 (115) "12345501366327440" (-98),
    .significand 8092346846277075077 18 "925031711960365024" (233),
    .point 8092346846277075077 (-215) "925031711960365024" (233),
    .significand 1115399725144531802 19 "4198047150284889840" (-233),
    .point 1115399725144531802 (252) "4198047150284889840" (-233),
    .significand 3291521426156352095 20 "11716315319786511046" (-87),
    .point 3291521426156352095 (107) "11716315319786511046" (-87),
    .significand 5753326583764063439 21 "432810072844612493629" (77),
    .point 5753326583764063439 (-56) "432810072844612493629" (77),
    .significand 2714754826636960890 22 "3317710118160031081518" (-126),
    .point 2714754826636960890 (148) "3317710118160031081518" (-126),
    .significand 9130860103934702298 1 "3" (303),
    .point 9130860103934702298 (-302) "3" (303),
    .significand 7253004531862572998 2 "76" (177),
    .point 7253004531862572998 (-175) "76" (177),
    .significand 7248500932235202502 3 "378" (177),
    .point 7248500932235202502 (-174) "378" (177),
    .significand 532219561813921069 4 "4350" (-272),
    .point 532219561813921069 (276) "4350" (-272),
    .significand 4193484964622220787 5 "23037" (-27),
    .point 4193484964622220787 (32) "23037" (-27),
    .significand 6478394945241064620 6 "126301" (126),
    .point 6478394945241064620 (-120) "126301" (126),
    .significand 4081102099168333807 7 "7142211" (-35),
    .point 4081102099168333807 (42) "7142211" (-35),
    .significand 1003664641253156897 8 "13934574" (-240),
    .point 1003664641253156897 (248) "13934574" (-240),
    .significand 1333054112555413487 9 "141463449" (-218),
    .point 1333054112555413487 (227) "141463449" (-218),
    .significand 3120930175348577518 10 "4539277920" (-99),
    .point 3120930175348577518 (109) "4539277920" (-99),
    .significand 3116426575721207022 11 "22696389598" (-99),
    .point 3116426575721207022 (110) "22696389598" (-99),
    .significand 3111922976093836526 12 "113481947988" (-99),
    .point 3111922976093836526 (111) "113481947988" (-99),
    .significand 3722435642050146346 13 "7700366561890" (-59),
    .point 3722435642050146346 (72) "7700366561890" (-59),
    .significand 3717932042422775850 14 "38501832809448" (-59),
    .point 3717932042422775850 (73) "38501832809448" (-59),
    .significand 3713428442795405354 15 "192509164047238" (-59),
    .point 3713428442795405354 (74) "192509164047238" (-59),
    .significand 7312325848315931338 16 "6898586531774201" (181),
    .point 7312325848315931338 (-165) "6898586531774201" (181),
    .significand 5581048456364302559 17 "13076622631878654" (66),
    .point 5581048456364302559 (-49) "13076622631878654" (66),
    .significand 7840646807246648332 18 "136052020756121240" (217),
    .point 7840646807246648332 (-199) "136052020756121240" (217),
    .significand 7951343930154187393 19 "3592810217475959676" (224),
    .point 7951343930154187393 (-205) "3592810217475959676" (224),
    .significand 7493780157268776495 20 "89125197712484551899" (193),
    .point 7493780157268776495 (-173) "89125197712484551899" (193),
    .significand 6069208425174192953 21 "558769757362301140950" (98),
    .point 6069208425174192953 (-77) "558769757362301140950" (98),
    .significand 2827802864145224998 22 "1176257830728540379990" (-118),
    .point 2827802864145224998 (140) "1176257830728540379990" (-118),
    .shortest 4591870180066957722 "1" (0),
    .shortest 4636737291354636288 "1" (3),
    .shortest 4599676419421066581 "3333333333333333" (0),
    .shortest 4607182453159755776 "10000076293945313" (1),
    .shortest 4614256655080292474 "3141592" (1),
    .shortest 4868796335060135680 "3141592" (18),
    .shortest 4895412794951729152 "18446744073709552" (20),
    .shortest 4950912855330343670 "1" (24),
    .shortest 9218868437227405311 "17976931348623157" (309),
    .shortest 4503599627370496 "22250738585072014" (-307),
    .shortest 1 "5" (-323),
    .shortest 1099727251911443 "5433374549648463" (-308),
    .significand 42005966290891775 0 "" (-304),
    .significand 42005966290891775 1 "8" (-305),
    .significand 42005966290891775 2 "76" (-305),
    .significand 42005966290891775 3 "756" (-305),
    .significand 42005966290891775 4 "7560" (-305),
    .significand 42005966290891775 5 "75600" (-305),
    .significand 42005966290891775 6 "755997" (-305),
    .significand 4591870180066957594 17 "99999999999998229" (-1),
    .significand 18373185954351160777 0 "" (304),
    .significand 18373185954351160777 1 "5" (304),
    .significand 18373185954351160777 2 "46" (304),
    .significand 18373185954351160777 3 "457" (304),
    .significand 18374757124371651904 0 "1" (305),
    .significand 18374757124371651904 1 "6" (304),
    .significand 18374757124371651904 2 "56" (304),
    .significand 18374757124371651904 3 "557" (304),
    .point 3761126029036565298 (15) "" (-56),
    .point 4337127894015884452 (18) "1" (-17),
    .point 4681301825747756082 (16) "955393266803182486910" (5),
    .point 4363772758706893618 (16) "1" (-15),
    .point 42005966290891775 (16) "" (-304)]

/-- The model passes all of them. -/
example : digits.all Check.passes = true := by decide +kernel

/-- test_decode.cpp:15-82. -/
example : (decode 9221120237041090560).category = .nan ∧ (decode 9219994337134247936).category = .nan ∧
    ((decode 9218868437227405312).category, (decode 9218868437227405312).negative) = (.infinity, false) ∧
    ((decode 18442240474082181120).category, (decode 18442240474082181120).negative) = (.infinity, true) ∧
    (decode 1).category = .finite ∧ (decode 1).finite = ⟨2, 1, 1, -1075, true⟩ ∧
    ((decode 0).category, (decode 0).negative) = (.zero, false) ∧
    ((decode 9223372036854775808).category, (decode 9223372036854775808).negative) = (.zero, true) ∧
    (decode 4503599627370496).category = .finite ∧ (decode 4503599627370496).finite = ⟨0x40000000000000, 1, 2, -1076, true⟩ ∧
    (decode 9218868437227405311).category = .finite ∧ (decode 9218868437227405311).finite = ⟨0x3ffffffffffffe, 1, 1, 970, false⟩ := by
  decide +kernel

end Emio.Conformance.Digits
