import Verif.Spec.TableFile

/-!
# The data files (data/callindex.out_silD03, data/callindex.out_CpaD03_0.10, data/callindex.out_CpeD03_0.10)

Generated by `tools/gen_dust_data.py`, which also checks that `line` gives every line of the files after the comments.  A number is given as its digits
without the decimal point, and the exponent: `1.239840E+05` is `1239840 5`.
-/
namespace Verif.DustData

open Verif.TableFile.Spec Verif.Text.Spec

set_option autoImplicit false

/-- a line: five numbers, each with its exponent -/
abbrev Row := List (Int × Int)

def r (a b c d e f g h i j : Int) : Row := [(a, b), (c, d), (e, f), (g, h), (i, j)]

/-- the last `k` decimal digits -/
def digitsOf : Nat → Nat → List Nat
  | 0, _ => []
  | k + 1, n => digitsOf k (n / 10) ++ [n % 10]

/-- the layout of a number: blanks (one less if there is a sign), digits after the point -/
def number (blanks places : Nat) (x : Int × Int) : Literal :=
  ⟨List.replicate (if x.1 < 0 then blanks - 1 else blanks) ' ', if x.1 < 0 then some true else none, [x.1.natAbs / 10 ^ places],
    some (digitsOf places x.1.natAbs), some (true, some (decide (x.2 < 0)), [x.2.natAbs / 10, x.2.natAbs % 10])⟩

/-- the layout of a line (data/callindex.out_silD03:9-845, data/callindex.out_CpaD03_0.10:9-394, data/callindex.out_CpeD03_0.10:9-391) -/
def line : Row → Line
  | [a, b, c, d, e] => .numbers [number 0 6 a, number 2 4 b, number 1 4 c, number 2 4 d, number 1 4 e] []
  | _ => .comment []

set_option maxRecDepth 20000 in
/-- data/callindex.out_silD03:9-845 -/
def silicon : List Row := [
  r 1239840 5 10799 1 76875 (-3) 24350 0 11190 (-3),
  r 9998710 4 10799 1 95356 (-3) 24350 0 13880 (-3),
  r 7000791 4 10799 1 13616 (-2) 24350 0 19820 (-3),
  r 6199200 4 10799 1 15382 (-2) 24350 0 22390 (-3),
  r 4999355 4 10799 1 19064 (-2) 24350 0 27750 (-3),
  r 2999855 4 10799 1 31781 (-2) 24350 0 46260 (-3),
  r 2479680 4 10792 1 38433 (-2) 24340 0 55960 (-3),
  r 2000064 4 10792 1 47657 (-2) 24340 0 69390 (-3),
  r 1499927 4 10792 1 63556 (-2) 24340 0 92540 (-3),
  r 1239840 4 10785 1 76899 (-2) 24330 0 11200 (-2),
  r 1100124 4 10778 1 86624 (-2) 24320 0 12620 (-2),
  r 9998710 3 10778 1 94998 (-2) 24320 0 13840 (-2),
  r 8997388 3 10772 1 10156 (-1) 24310 0 14800 (-2),
  r 7000791 3 10758 1 11809 (-1) 24290 0 17220 (-2),
  r 6199200 3 10751 1 12704 (-1) 24280 0 18530 (-2),
  r 4999355 3 10737 1 14451 (-1) 24260 0 21090 (-2),
  r 3999484 3 10723 1 16524 (-1) 24240 0 24130 (-2),
  r 2999855 3 10702 1 19637 (-1) 24210 0 28700 (-2),
  r 2479680 3 10682 1 22005 (-1) 24180 0 32190 (-2),
  r 2000065 3 10668 1 25039 (-1) 24160 0 36650 (-2),
  r 1499927 3 10640 1 29759 (-1) 24120 0 43610 (-2),
  r 1239840 3 10619 1 33360 (-1) 24090 0 48930 (-2),
  r 1200232 3 10612 1 34012 (-1) 24080 0 49900 (-2),
  r 9998710 2 10598 1 37963 (-1) 24060 0 55730 (-2),
  r 8997388 2 10584 1 40440 (-1) 24040 0 59400 (-2),
  r 7973248 2 10576 1 43477 (-1) 24030 0 63880 (-2),
  r 7500544 2 10576 1 45110 (-1) 24030 0 66280 (-2),
  r 7000791 2 10576 1 47084 (-1) 24030 0 69180 (-2),
  r 6778787 2 10575 1 48084 (-1) 24030 0 70650 (-2),
  r 6577401 2 10575 1 49071 (-1) 24030 0 72100 (-2),
  r 6377778 2 10575 1 50119 (-1) 24030 0 73640 (-2),
  r 6199200 2 10575 1 51140 (-1) 24030 0 75140 (-2),
  r 5980898 2 10574 1 52501 (-1) 24030 0 77140 (-2),
  r 5481167 2 10580 1 56200 (-1) 24040 0 82550 (-2),
  r 4999355 2 10586 1 60759 (-1) 24050 0 89220 (-2),
  r 4485673 2 10598 1 67186 (-1) 24070 0 98600 (-2),
  r 3986624 2 10616 1 75770 (-1) 24100 0 11110 (-1),
  r 3488576 2 10632 1 87987 (-1) 24130 0 12890 (-1),
  r 2999855 2 10645 1 10596 0 24160 0 15510 (-1),
  r 2749701 2 10646 1 11884 0 24170 0 17390 (-1),
  r 2599790 2 10634 1 12824 0 24160 0 18770 (-1),
  r 2500182 2 10616 1 13506 0 24140 0 19780 (-1),
  r 2479680 2 10615 1 13642 0 24140 0 19980 (-1),
  r 2400000 2 10592 1 14115 0 24110 0 20690 (-1),
  r 2250163 2 10566 1 15043 0 24080 0 22070 (-1),
  r 2000065 2 10512 1 16922 0 24020 0 24870 (-1),
  r 1749951 2 10445 1 19338 0 23950 0 28480 (-1),
  r 1499927 2 10347 1 22544 0 23850 0 33300 (-1),
  r 1350000 2 10260 1 25023 0 23760 0 37060 (-1),
  r 1239840 2 10167 1 27197 0 23660 0 40400 (-1),
  r 1180800 2 10109 1 28526 0 23600 0 42450 (-1),
  r 1127127 2 10045 1 29842 0 23530 0 44500 (-1),
  r 1033200 2 99129 0 32442 0 23390 0 48580 (-1),
  r 9998710 1 98568 0 33470 0 23330 0 50210 (-1),
  r 9537231 1 97652 0 34985 0 23230 0 52640 (-1),
  r 9184000 1 96838 0 36229 0 23140 0 54660 (-1),
  r 8856000 1 96020 0 37452 0 23050 0 56660 (-1),
  r 8550621 1 95130 0 38650 0 22950 0 58650 (-1),
  r 8265601 1 94236 0 39834 0 22850 0 60630 (-1),
  r 7998968 1 93275 0 40977 0 22740 0 62580 (-1),
  r 7749000 1 92310 0 42099 0 22630 0 64510 (-1),
  r 7514182 1 91278 0 43186 0 22510 0 66420 (-1),
  r 7293176 1 90246 0 44245 0 22390 0 68300 (-1),
  r 7084800 1 89214 0 45275 0 22270 0 70150 (-1),
  r 7000790 1 88719 0 45687 0 22210 0 70920 (-1),
  r 6888000 1 88118 0 46262 0 22140 0 71970 (-1),
  r 6701838 1 86961 0 47200 0 22000 0 73750 (-1),
  r 6525474 1 85807 0 48102 0 21860 0 75490 (-1),
  r 6358154 1 84658 0 48969 0 21720 0 77190 (-1),
  r 6199200 1 83449 0 49786 0 21570 0 78850 (-1),
  r 5904000 1 81051 0 51308 0 21270 0 82040 (-1),
  r 5635637 1 78562 0 52627 0 20950 0 85020 (-1),
  r 5390609 1 76048 0 53775 0 20620 0 87810 (-1),
  r 5166000 1 73578 0 54758 0 20290 0 90390 (-1),
  r 4999355 1 71601 0 55417 0 20020 0 92300 (-1),
  r 4508509 1 65042 0 56947 0 19090 0 97880 (-1),
  r 4132800 1 59310 0 57533 0 18230 0 10190 0,
  r 3757091 1 53013 0 57141 0 17210 0 10500 0,
  r 3350919 1 46401 0 56659 0 16110 0 10850 0,
  r 2999855 1 39149 0 55398 0 14820 0 11160 0,
  r 2755200 1 33538 0 53395 0 13710 0 11260 0,
  r 2499677 1 27226 0 50870 0 12390 0 11360 0,
  r 2479680 1 26669 0 50530 0 12260 0 11350 0,
  r 2431059 1 25522 0 49608 0 11970 0 11290 0,
  r 2384308 1 24409 0 48978 0 11710 0 11280 0,
  r 2339321 1 23205 0 48130 0 11410 0 11240 0,
  r 2296000 1 22211 0 47334 0 11150 0 11190 0,
  r 2254255 1 21053 0 46771 0 10880 0 11200 0,
  r 2214000 1 19735 0 45845 0 10540 0 11160 0,
  r 2175158 1 18733 0 44771 0 10240 0 11060 0,
  r 2137655 1 17806 0 43896 0 99710 (-1) 10990 0,
  r 2101424 1 16751 0 42951 0 96660 (-1) 10920 0,
  r 2066400 1 15781 0 41899 0 93620 (-1) 10820 0,
  r 2032525 1 14898 0 40899 0 90760 (-1) 10720 0,
  r 2000065 1 13758 0 39906 0 87350 (-1) 10650 0,
  r 1937250 1 11919 0 36772 0 79900 (-1) 10220 0,
  r 1878546 1 10985 0 33658 0 74140 (-1) 96640 (-1),
  r 1823294 1 10801 0 30392 0 69750 (-1) 89520 (-1),
  r 1771200 1 11185 0 27643 0 67350 (-1) 82590 (-1),
  r 1722000 1 11994 0 25080 0 66360 (-1) 75380 (-1),
  r 1675459 1 13090 0 23042 0 66900 (-1) 69030 (-1),
  r 1631368 1 14384 0 21213 0 68380 (-1) 62990 (-1),
  r 1589538 1 15912 0 19833 0 71090 (-1) 57960 (-1),
  r 1549800 1 17519 0 18723 0 74360 (-1) 53690 (-1),
  r 1512000 1 19322 0 17981 0 78490 (-1) 50370 (-1),
  r 1499928 1 19929 0 17810 0 79940 (-1) 49490 (-1),
  r 1476000 1 21235 0 17542 0 83110 (-1) 47900 (-1),
  r 1441674 1 23528 0 17573 0 88920 (-1) 46510 (-1),
  r 1408909 1 25957 0 18550 0 95470 (-1) 47450 (-1),
  r 1377600 1 27943 0 20615 0 10140 0 51180 (-1),
  r 1347652 1 28868 0 23356 0 10520 0 56910 (-1),
  r 1318979 1 28777 0 25974 0 10670 0 62830 (-1),
  r 1291500 1 28204 0 28494 0 10720 0 68760 (-1),
  r 1265143 1 26805 0 30916 0 10600 0 75040 (-1),
  r 1239840 1 24909 0 32703 0 10340 0 80390 (-1),
  r 1227564 1 23950 0 33447 0 10200 0 82790 (-1),
  r 1215529 1 22929 0 34193 0 10050 0 85270 (-1),
  r 1192154 1 20373 0 35382 0 96220 (-1) 90160 (-1),
  r 1169660 1 17676 0 35700 0 90850 (-1) 93530 (-1),
  r 1148000 1 15410 0 35671 0 86020 (-1) 95880 (-1),
  r 1127127 1 13059 0 35639 0 80980 (-1) 98460 (-1),
  r 1107000 1 10590 0 35166 0 75130 (-1) 10040 0,
  r 1087579 1 83569 (-1) 34412 0 69350 (-1) 10160 0,
  r 1068828 1 59242 (-1) 33555 0 62890 (-1) 10300 0,
  r 1050712 1 34129 (-1) 31928 0 54990 (-1) 10300 0,
  r 1033200 1 16295 (-1) 29629 0 47410 (-1) 10050 0,
  r 1016262 1 67691 (-2) 27461 0 41670 (-1) 96920 (-1),
  r 9998710 0 (-47352) (-3) 25733 0 37010 (-1) 93910 (-1),
  r 9840000 0 (-86452) (-2) 24159 0 32220 (-1) 91360 (-1),
  r 9686250 0 (-17753) (-1) 22436 0 26730 (-1) 88520 (-1),
  r 9663602 0 (-19068) (-1) 22156 0 25860 (-1) 88020 (-1),
  r 9537231 0 (-25478) (-1) 20426 0 20820 (-1) 84530 (-1),
  r 9392728 0 (-29462) (-1) 18221 0 15310 (-1) 79010 (-1),
  r 9252538 0 (-29079) (-1) 16034 0 10960 (-1) 72250 (-1),
  r 9116470 0 (-24911) (-1) 14029 0 82150 (-2) 64820 (-1),
  r 8984348 0 (-18122) (-1) 12318 0 71890 (-2) 57460 (-1),
  r 8856000 0 (-10175) (-1) 10933 0 75460 (-2) 50830 (-1),
  r 8731268 0 (-23368) (-2) 98417 (-1) 87000 (-2) 45270 (-1),
  r 8610001 0 43561 (-2) 89686 (-1) 99900 (-2) 40770 (-1),
  r 8492055 0 94163 (-2) 81785 (-1) 10910 (-1) 36870 (-1),
  r 8377297 0 13394 (-1) 73312 (-1) 11450 (-1) 32890 (-1),
  r 8265600 0 17716 (-1) 63870 (-1) 12170 (-1) 28470 (-1),
  r 7998968 0 34472 (-1) 41286 (-1) 17290 (-1) 17600 (-1),
  r 7749001 0 54929 (-1) 27037 (-1) 24940 (-1) 10820 (-1),
  r 7514182 0 73883 (-1) 19451 (-1) 32070 (-1) 73640 (-2),
  r 7293177 0 89706 (-1) 16884 (-1) 37870 (-1) 61230 (-2),
  r 7084800 0 10151 0 16352 (-1) 42070 (-1) 57550 (-2),
  r 6911037 0 10970 0 16422 (-1) 44920 (-1) 56660 (-2),
  r 6701838 0 11784 0 16575 (-1) 47700 (-1) 56110 (-2),
  r 6525474 0 12373 0 16585 (-1) 49680 (-1) 55400 (-2),
  r 6358154 0 12871 0 16486 (-1) 51330 (-1) 54470 (-2),
  r 6199200 0 13307 0 16284 (-1) 52760 (-1) 53300 (-2),
  r 5904000 0 14030 0 15699 (-1) 55100 (-1) 50610 (-2),
  r 5635636 0 14635 0 15201 (-1) 57030 (-1) 48400 (-2),
  r 5510400 0 14894 0 14999 (-1) 57850 (-1) 47510 (-2),
  r 5166000 0 15541 0 14549 (-1) 59880 (-1) 45500 (-2),
  r 4999355 0 15821 0 14394 (-1) 60750 (-1) 44770 (-2),
  r 4768616 0 16183 0 14219 (-1) 61870 (-1) 43920 (-2),
  r 4428000 0 16639 0 14028 (-1) 63270 (-1) 42960 (-2),
  r 4132800 0 16973 0 13892 (-1) 64290 (-1) 42280 (-2),
  r 3874500 0 17231 0 13681 (-1) 65070 (-1) 41440 (-2),
  r 3646588 0 17430 0 13476 (-1) 65670 (-1) 40670 (-2),
  r 3401482 0 17620 0 13223 (-1) 66240 (-1) 39770 (-2),
  r 3262737 0 17717 0 13039 (-1) 66530 (-1) 39150 (-2),
  r 3099600 0 17821 0 12770 (-1) 66840 (-1) 38270 (-2),
  r 2755200 0 18023 0 12314 (-1) 67440 (-1) 36770 (-2),
  r 2479680 0 18144 0 11947 (-1) 67800 (-1) 35600 (-2),
  r 2423930 0 18175 0 11880 (-1) 67890 (-1) 35380 (-2),
  r 2254255 0 18235 0 11664 (-1) 68070 (-1) 34700 (-2),
  r 2199858 0 18249 0 11593 (-1) 68110 (-1) 34480 (-2),
  r 2121924 0 18280 0 11491 (-1) 68200 (-1) 34160 (-2),
  r 2066400 0 18297 0 11424 (-1) 68250 (-1) 33950 (-2),
  r 1907446 0 18331 0 11222 (-1) 68350 (-1) 33330 (-2),
  r 1771200 0 18365 0 11057 (-1) 68450 (-1) 32820 (-2),
  r 1650040 0 18385 0 10940 (-1) 68510 (-1) 32460 (-2),
  r 1549800 0 18402 0 10849 (-1) 68560 (-1) 32180 (-2),
  r 1458635 0 18402 0 10751 (-1) 68560 (-1) 31890 (-2),
  r 1377600 0 18416 0 10669 (-1) 68600 (-1) 31640 (-2),
  r 1305095 0 18413 0 10587 (-1) 68590 (-1) 31400 (-2),
  r 1249965 0 18413 0 10530 (-1) 68590 (-1) 31230 (-2),
  r 1239840 0 18420 0 10521 (-1) 68610 (-1) 31200 (-2),
  r 1127127 0 18426 0 10458 (-1) 68630 (-1) 31010 (-2),
  r 9998710 (-1) 18427 0 10377 (-1) 68630 (-1) 30770 (-2),
  r 8997388 (-1) 18423 0 10320 (-1) 68620 (-1) 30600 (-2),
  r 7998968 (-1) 18427 0 10253 (-1) 68630 (-1) 30400 (-2),
  r 7000791 (-1) 18461 0 10178 (-1) 68730 (-1) 30160 (-2),
  r 6563473 (-1) 18478 0 10147 (-1) 68780 (-1) 30060 (-2),
  r 5500621 (-1) 18566 0 10095 (-1) 69040 (-1) 29860 (-2),
  r 4860212 (-1) 18688 0 10073 (-1) 69400 (-1) 29730 (-2),
  r 4399716 (-1) 18813 0 10064 (-1) 69770 (-1) 29640 (-2),
  r 4339657 (-1) 18833 0 10061 (-1) 69830 (-1) 29620 (-2),
  r 3999484 (-1) 18987 0 10060 (-1) 70280 (-1) 29540 (-2),
  r 3814892 (-1) 19089 0 10051 (-1) 70580 (-1) 29460 (-2),
  r 3649809 (-1) 19202 0 10043 (-1) 70910 (-1) 29380 (-2),
  r 3440177 (-1) 19383 0 10040 (-1) 71440 (-1) 29280 (-2),
  r 3262737 (-1) 19575 0 10031 (-1) 72000 (-1) 29160 (-2),
  r 3099600 (-1) 19786 0 10032 (-1) 72610 (-1) 29060 (-2),
  r 2917271 (-1) 20097 0 10022 (-1) 73510 (-1) 28880 (-2),
  r 2850207 (-1) 20240 0 10021 (-1) 73920 (-1) 28810 (-2),
  r 2739978 (-1) 20498 0 10022 (-1) 74660 (-1) 28690 (-2),
  r 2583000 (-1) 20961 0 10010 (-1) 75980 (-1) 28440 (-2),
  r 2500181 (-1) 21271 0 99997 (-2) 76860 (-1) 28270 (-2),
  r 2400000 (-1) 21733 0 97774 (-2) 78160 (-1) 27440 (-2),
  r 2384308 (-1) 21812 0 97610 (-2) 78380 (-1) 27360 (-2),
  r 2339321 (-1) 22084 0 97595 (-2) 79140 (-1) 27240 (-2),
  r 2299833 (-1) 22342 0 98275 (-2) 79860 (-1) 27320 (-2),
  r 2254255 (-1) 22681 0 99982 (-2) 80800 (-1) 27650 (-2),
  r 2214000 (-1) 23032 0 10361 (-1) 81770 (-1) 28500 (-2),
  r 2190143 (-1) 23254 0 10691 (-1) 82380 (-1) 29310 (-2),
  r 2175158 (-1) 23392 0 10940 (-1) 82760 (-1) 29930 (-2),
  r 2137655 (-1) 23783 0 11739 (-1) 83830 (-1) 31930 (-2),
  r 2100000 (-1) 24195 0 12810 (-1) 84950 (-1) 34630 (-2),
  r 2000065 (-1) 25496 0 17421 (-1) 88460 (-1) 46220 (-2),
  r 1899847 (-1) 27054 0 25721 (-1) 92610 (-1) 66770 (-2),
  r 1800000 (-1) 29006 0 39400 (-1) 97750 (-1) 99620 (-2),
  r 1700041 (-1) 31328 0 64065 (-1) 10390 0 15710 (-1),
  r 1653120 (-1) 32417 0 81767 (-1) 10690 0 19760 (-1),
  r 1600000 (-1) 33465 0 10929 0 11010 0 26010 (-1),
  r 1549800 (-1) 33810 0 14280 0 11200 0 33680 (-1),
  r 1490013 (-1) 32464 0 18935 0 11090 0 44890 (-1),
  r 1458635 (-1) 30803 0 21003 0 10820 0 50440 (-1),
  r 1441674 (-1) 29630 0 21824 0 10600 0 52970 (-1),
  r 1425104 (-1) 28487 0 22338 0 10370 0 54830 (-1),
  r 1408909 (-1) 27537 0 22627 0 10170 0 56090 (-1),
  r 1389955 (-1) 26628 0 22912 0 99790 (-1) 57340 (-1),
  r 1362461 (-1) 25468 0 23339 0 97390 (-1) 59120 (-1),
  r 1333161 (-1) 24337 0 23822 0 95100 (-1) 61050 (-1),
  r 1305095 (-1) 23316 0 24300 0 93070 (-1) 62930 (-1),
  r 1278186 (-1) 22337 0 24781 0 91150 (-1) 64820 (-1),
  r 1249965 (-1) 21327 0 25309 0 89210 (-1) 66880 (-1),
  r 1215529 (-1) 20037 0 25981 0 86750 (-1) 69560 (-1),
  r 1180013 (-1) 18639 0 26721 0 84130 (-1) 72560 (-1),
  r 1148000 (-1) 17257 0 27421 0 81550 (-1) 75520 (-1),
  r 1109973 (-1) 15420 0 28310 0 78140 (-1) 79460 (-1),
  r 1078122 (-1) 13609 0 29101 0 74760 (-1) 83260 (-1),
  r 1050000 (-1) 11659 0 29898 0 71140 (-1) 87350 (-1),
  r 1024661 (-1) 89534 (-1) 30130 0 65150 (-1) 91220 (-1),
  r 9999516 (-2) 67229 (-1) 29469 0 59070 (-1) 92630 (-1),
  r 9762520 (-2) 48874 (-1) 28670 0 53610 (-1) 93320 (-1),
  r 9537231 (-2) 32241 (-1) 27761 0 48280 (-1) 93610 (-1),
  r 9322105 (-2) 17316 (-1) 26659 0 42930 (-1) 93260 (-1),
  r 9116471 (-2) 45795 (-2) 25211 0 37390 (-1) 91750 (-1),
  r 8856000 (-2) 11980 (-2) 23119 0 32960 (-1) 86940 (-1),
  r 8265600 (-2) (-80033) (-2) 23310 0 30880 (-1) 89050 (-1),
  r 7749000 (-2) (-47691) (-1) 20850 0 15600 (-1) 90180 (-1),
  r 7293177 (-2) (-65222) (-1) 17501 0 32490 (-2) 84750 (-1),
  r 6888000 (-2) (-71478) (-1) 14500 0 (-61110) (-2) 77220 (-1),
  r 6525474 (-2) (-70834) (-1) 12001 0 (-12630) (-1) 68680 (-1),
  r 6199200 (-2) (-66031) (-1) 99997 (-1) (-16460) (-1) 59850 (-1),
  r 5904000 (-2) (-58410) (-1) 85006 (-1) (-17470) (-1) 51500 (-1),
  r 5635637 (-2) (-50359) (-1) 75998 (-1) (-16210) (-1) 45350 (-1),
  r 5390609 (-2) (-44791) (-1) 70997 (-1) (-14810) (-1) 41670 (-1),
  r 5166000 (-2) (-41768) (-1) 66989 (-1) (-14270) (-1) 39070 (-1),
  r 4959360 (-2) (-39960) (-1) 62992 (-1) (-14250) (-1) 36730 (-1),
  r 4768616 (-2) (-38660) (-1) 58992 (-1) (-14430) (-1) 34470 (-1),
  r 4592000 (-2) (-37535) (-1) 55000 (-1) (-14650) (-1) 32220 (-1),
  r 4428000 (-2) (-36425) (-1) 51000 (-1) (-14830) (-1) 29940 (-1),
  r 4275310 (-2) (-35112) (-1) 47003 (-1) (-14850) (-1) 27600 (-1),
  r 4132800 (-2) (-32888) (-1) 43198 (-1) (-14290) (-1) 25200 (-1),
  r 3874500 (-2) (-29393) (-1) 38941 (-1) (-13040) (-1) 22390 (-1),
  r 3646588 (-2) (-27148) (-1) 35103 (-1) (-12330) (-1) 20020 (-1),
  r 3444000 (-2) (-25250) (-1) 31682 (-1) (-11700) (-1) 17940 (-1),
  r 3262737 (-2) (-23510) (-1) 28653 (-1) (-11070) (-1) 16110 (-1),
  r 3099600 (-2) (-21875) (-1) 25975 (-1) (-10430) (-1) 14500 (-1),
  r 2952000 (-2) (-20311) (-1) 23602 (-1) (-97780) (-2) 13080 (-1),
  r 2817818 (-2) (-18740) (-1) 21511 (-1) (-90830) (-2) 11830 (-1),
  r 2773691 (-2) (-18101) (-1) 20834 (-1) (-87840) (-2) 11420 (-1),
  r 2755200 (-2) (-17832) (-1) 20700 (-1) (-86480) (-2) 11330 (-1),
  r 2695304 (-2) (-17220) (-1) 19976 (-1) (-83660) (-2) 10900 (-1),
  r 2637958 (-2) (-16591) (-1) 19175 (-1) (-80780) (-2) 10430 (-1),
  r 2583000 (-2) (-15861) (-1) 18370 (-1) (-77340) (-2) 99550 (-2),
  r 2530286 (-2) (-15031) (-1) 17680 (-1) (-73290) (-2) 95390 (-2),
  r 2479680 (-2) (-14201) (-1) 17140 (-1) (-69160) (-2) 92070 (-2),
  r 2431059 (-2) (-13190) (-1) 16560 (-1) (-64090) (-2) 88470 (-2),
  r 2384308 (-2) (-11831) (-1) 16401 (-1) (-57000) (-2) 86960 (-2),
  r 2361600 (-2) (-11090) (-1) 16650 (-1) (-52990) (-2) 87910 (-2),
  r 2343743 (-2) (-10521) (-1) 16950 (-1) (-49870) (-2) 89200 (-2),
  r 2326154 (-2) (-96794) (-2) 17480 (-1) (-45230) (-2) 91540 (-2),
  r 2308827 (-2) (-92016) (-2) 19079 (-1) (-41930) (-2) 99570 (-2),
  r 2291756 (-2) (-10190) (-1) 20970 (-1) (-45970) (-2) 10990 (-1),
  r 2274936 (-2) (-12200) (-1) 21464 (-1) (-56110) (-2) 11370 (-1),
  r 2258361 (-2) (-13821) (-1) 20775 (-1) (-65050) (-2) 11110 (-1),
  r 2242025 (-2) (-14702) (-1) 19708 (-1) (-70370) (-2) 10600 (-1),
  r 2225925 (-2) (-15200) (-1) 18657 (-1) (-73640) (-2) 10070 (-1),
  r 2210054 (-2) (-15251) (-1) 17420 (-1) (-74610) (-2) 94120 (-2),
  r 2194407 (-2) (-14890) (-1) 16571 (-1) (-73130) (-2) 89390 (-2),
  r 2178981 (-2) (-14471) (-1) 15960 (-1) (-71200) (-2) 85920 (-2),
  r 2163770 (-2) (-14032) (-1) 15581 (-1) (-69040) (-2) 83680 (-2),
  r 2148770 (-2) (-13691) (-1) 15380 (-1) (-67320) (-2) 82450 (-2),
  r 2133976 (-2) (-13481) (-1) 15180 (-1) (-66300) (-2) 81290 (-2),
  r 2119385 (-2) (-13281) (-1) 14951 (-1) (-65340) (-2) 79980 (-2),
  r 2104991 (-2) (-13080) (-1) 14761 (-1) (-64360) (-2) 78880 (-2),
  r 2069850 (-2) (-12531) (-1) 14331 (-1) (-61640) (-2) 76360 (-2),
  r 2035862 (-2) (-12081) (-1) 14219 (-1) (-59310) (-2) 75580 (-2),
  r 2002973 (-2) (-11970) (-1) 14291 (-1) (-58690) (-2) 75910 (-2),
  r 1986923 (-2) (-12150) (-1) 14271 (-1) (-59650) (-2) 75880 (-2),
  r 1971129 (-2) (-12340) (-1) 13970 (-1) (-60780) (-2) 74370 (-2),
  r 1940282 (-2) (-12350) (-1) 13300 (-1) (-61110) (-2) 70830 (-2),
  r 1910385 (-2) (-12220) (-1) 12709 (-1) (-60650) (-2) 67650 (-2),
  r 1907446 (-2) (-12211) (-1) 12640 (-1) (-60630) (-2) 67280 (-2),
  r 1878545 (-2) (-11941) (-1) 12039 (-1) (-59420) (-2) 64000 (-2),
  r 1850508 (-2) (-11600) (-1) 11550 (-1) (-57790) (-2) 61290 (-2),
  r 1823294 (-2) (-11161) (-1) 11119 (-1) (-55620) (-2) 58870 (-2),
  r 1796870 (-2) (-10741) (-1) 10980 (-1) (-53450) (-2) 58000 (-2),
  r 1771200 (-2) (-10621) (-1) 10921 (-1) (-52840) (-2) 57650 (-2),
  r 1746253 (-2) (-10550) (-1) 10560 (-1) (-52580) (-2) 55730 (-2),
  r 1722000 (-2) (-10320) (-1) 10271 (-1) (-51460) (-2) 54140 (-2),
  r 1698411 (-2) (-10141) (-1) 10100 (-1) (-50570) (-2) 53190 (-2),
  r 1686857 (-2) (-10131) (-1) 10021 (-1) (-50540) (-2) 52770 (-2),
  r 1675460 (-2) (-10150) (-1) 98424 (-2) (-50690) (-2) 51840 (-2),
  r 1653120 (-2) (-99573) (-2) 94127 (-2) (-49800) (-2) 49530 (-2),
  r 1631369 (-2) (-97103) (-2) 91699 (-2) (-48570) (-2) 48190 (-2),
  r 1610182 (-2) (-95268) (-2) 89348 (-2) (-47670) (-2) 46910 (-2),
  r 1589539 (-2) (-93495) (-2) 87046 (-2) (-46800) (-2) 45660 (-2),
  r 1569418 (-2) (-91783) (-2) 84814 (-2) (-45960) (-2) 44450 (-2),
  r 1549800 (-2) (-90114) (-2) 82614 (-2) (-45140) (-2) 43260 (-2),
  r 1530667 (-2) (-88447) (-2) 80449 (-2) (-44320) (-2) 42090 (-2),
  r 1512000 (-2) (-86746) (-2) 78339 (-2) (-43480) (-2) 40950 (-2),
  r 1493783 (-2) (-85051) (-2) 76321 (-2) (-42640) (-2) 39860 (-2),
  r 1479523 (-2) (-83624) (-2) 74749 (-2) (-41930) (-2) 39010 (-2),
  r 1476000 (-2) (-83265) (-2) 74418 (-2) (-41750) (-2) 38830 (-2),
  r 1458635 (-2) (-81656) (-2) 72619 (-2) (-40950) (-2) 37860 (-2),
  r 1441674 (-2) (-80026) (-2) 70722 (-2) (-40140) (-2) 36840 (-2),
  r 1425103 (-2) (-78264) (-2) 68885 (-2) (-39260) (-2) 35850 (-2),
  r 1408909 (-2) (-76409) (-2) 67125 (-2) (-38330) (-2) 34900 (-2),
  r 1393079 (-2) (-74503) (-2) 65555 (-2) (-37370) (-2) 34050 (-2),
  r 1377600 (-2) (-72461) (-2) 63968 (-2) (-36340) (-2) 33190 (-2),
  r 1362462 (-2) (-70119) (-2) 62657 (-2) (-35150) (-2) 32470 (-2),
  r 1347652 (-2) (-67293) (-2) 61998 (-2) (-33700) (-2) 32080 (-2),
  r 1333161 (-2) (-65577) (-2) 63352 (-2) (-32790) (-2) 32750 (-2),
  r 1324615 (-2) (-66271) (-2) 63832 (-2) (-33140) (-2) 33010 (-2),
  r 1318979 (-2) (-66937) (-2) 62919 (-2) (-33500) (-2) 32550 (-2),
  r 1305095 (-2) (-66200) (-2) 59905 (-2) (-33170) (-2) 30980 (-2),
  r 1294196 (-2) (-63925) (-2) 57788 (-2) (-32030) (-2) 29850 (-2),
  r 1291500 (-2) (-63172) (-2) 57889 (-2) (-31640) (-2) 29890 (-2),
  r 1278186 (-2) (-61420) (-2) 57652 (-2) (-30740) (-2) 29740 (-2),
  r 1265143 (-2) (-59911) (-2) 56552 (-2) (-29980) (-2) 29150 (-2),
  r 1252364 (-2) (-57737) (-2) 55315 (-2) (-28880) (-2) 28480 (-2),
  r 1239840 (-2) (-54875) (-2) 54562 (-2) (-27420) (-2) 28050 (-2),
  r 1227564 (-2) (-52288) (-2) 54695 (-2) (-26090) (-2) 28080 (-2),
  r 1215529 (-2) (-48991) (-2) 54048 (-2) (-24410) (-2) 27700 (-2),
  r 1203728 (-2) (-43446) (-2) 55047 (-2) (-21560) (-2) 28130 (-2),
  r 1192154 (-2) (-34739) (-2) 60570 (-2) (-17040) (-2) 30810 (-2),
  r 1180800 (-2) (-34799) (-2) 81025 (-2) (-16690) (-2) 41200 (-2),
  r 1174091 (-2) (-48514) (-2) 90447 (-2) (-23460) (-2) 46310 (-2),
  r 1169660 (-2) (-59465) (-2) 87163 (-2) (-29150) (-2) 44890 (-2),
  r 1158729 (-2) (-68902) (-2) 72792 (-2) (-34330) (-2) 37690 (-2),
  r 1148000 (-2) (-66794) (-2) 62111 (-2) (-33440) (-2) 32130 (-2),
  r 1137468 (-2) (-62819) (-2) 59606 (-2) (-31430) (-2) 30770 (-2),
  r 1127127 (-2) (-61150) (-2) 57718 (-2) (-30600) (-2) 29770 (-2),
  r 1116973 (-2) (-59033) (-2) 56423 (-2) (-29530) (-2) 29070 (-2),
  r 1107000 (-2) (-57345) (-2) 57154 (-2) (-28650) (-2) 29420 (-2),
  r 1101101 (-2) (-57278) (-2) 58148 (-2) (-28600) (-2) 29930 (-2),
  r 1097204 (-2) (-58117) (-2) 58861 (-2) (-29020) (-2) 30310 (-2),
  r 1087579 (-2) (-60961) (-2) 57899 (-2) (-30500) (-2) 29860 (-2),
  r 1078122 (-2) (-62261) (-2) 54639 (-2) (-31220) (-2) 28200 (-2),
  r 1068828 (-2) (-62124) (-2) 51889 (-2) (-31190) (-2) 26780 (-2),
  r 1059692 (-2) (-60937) (-2) 48837 (-2) (-30620) (-2) 25190 (-2),
  r 1050712 (-2) (-59111) (-2) 47254 (-2) (-29700) (-2) 24350 (-2),
  r 1041882 (-2) (-56980) (-2) 45927 (-2) (-28620) (-2) 23640 (-2),
  r 1033200 (-2) (-55377) (-2) 46374 (-2) (-27790) (-2) 23850 (-2),
  r 1016262 (-2) (-54823) (-2) 46816 (-2) (-27500) (-2) 24070 (-2),
  r 9998710 (-3) (-55410) (-2) 46140 (-2) (-27810) (-2) 23730 (-2),
  r 9950562 (-3) (-55918) (-2) 46244 (-2) (-28070) (-2) 23790 (-2),
  r 9918720 (-3) (-56586) (-2) 45742 (-2) (-28420) (-2) 23540 (-2),
  r 9840000 (-3) (-57416) (-2) 43856 (-2) (-28870) (-2) 22580 (-2),
  r 9762520 (-3) (-57366) (-2) 41623 (-2) (-28870) (-2) 21430 (-2),
  r 9686250 (-3) (-56646) (-2) 39811 (-2) (-28520) (-2) 20490 (-2),
  r 9611163 (-3) (-55762) (-2) 38410 (-2) (-28080) (-2) 19760 (-2),
  r 9537231 (-3) (-54921) (-2) 37202 (-2) (-27660) (-2) 19130 (-2),
  r 9184000 (-3) (-50907) (-2) 32836 (-2) (-25640) (-2) 16850 (-2),
  r 8856000 (-3) (-47545) (-2) 30121 (-2) (-23940) (-2) 15430 (-2),
  r 8550621 (-3) (-44889) (-2) 27641 (-2) (-22600) (-2) 14140 (-2),
  r 8503703 (-3) (-44434) (-2) 27276 (-2) (-22370) (-2) 13950 (-2),
  r 8492055 (-3) (-44316) (-2) 27199 (-2) (-22310) (-2) 13910 (-2),
  r 8434286 (-3) (-43821) (-2) 26815 (-2) (-22060) (-2) 13710 (-2),
  r 8377298 (-3) (-43365) (-2) 26371 (-2) (-21830) (-2) 13480 (-2),
  r 8321074 (-3) (-42851) (-2) 25948 (-2) (-21570) (-2) 13260 (-2),
  r 8265601 (-3) (-42316) (-2) 25505 (-2) (-21300) (-2) 13030 (-2),
  r 8210861 (-3) (-41763) (-2) 25140 (-2) (-21020) (-2) 12840 (-2),
  r 8156843 (-3) (-41170) (-2) 24756 (-2) (-20720) (-2) 12640 (-2),
  r 8103530 (-3) (-40423) (-2) 24492 (-2) (-20340) (-2) 12500 (-2),
  r 8050909 (-3) (-39639) (-2) 24521 (-2) (-19940) (-2) 12510 (-2),
  r 8030052 (-3) (-39248) (-2) 24644 (-2) (-19740) (-2) 12570 (-2),
  r 8009302 (-3) (-38961) (-2) 25157 (-2) (-19590) (-2) 12830 (-2),
  r 7988661 (-3) (-39224) (-2) 25781 (-2) (-19720) (-2) 13150 (-2),
  r 7968123 (-3) (-39873) (-2) 25910 (-2) (-20050) (-2) 13220 (-2),
  r 7947693 (-3) (-40398) (-2) 25589 (-2) (-20320) (-2) 13060 (-2),
  r 7927367 (-3) (-40627) (-2) 25116 (-2) (-20440) (-2) 12820 (-2),
  r 7907143 (-3) (-40738) (-2) 24644 (-2) (-20500) (-2) 12580 (-2),
  r 7887024 (-3) (-40653) (-2) 24097 (-2) (-20460) (-2) 12300 (-2),
  r 7867005 (-3) (-40432) (-2) 23688 (-2) (-20350) (-2) 12090 (-2),
  r 7847088 (-3) (-40173) (-2) 23378 (-2) (-20220) (-2) 11930 (-2),
  r 7797736 (-3) (-39638) (-2) 22894 (-2) (-19950) (-2) 11680 (-2),
  r 7749000 (-3) (-39183) (-2) 22488 (-2) (-19720) (-2) 11470 (-2),
  r 7700870 (-3) (-38727) (-2) 22120 (-2) (-19490) (-2) 11280 (-2),
  r 7653334 (-3) (-38313) (-2) 21890 (-2) (-19280) (-2) 11160 (-2),
  r 7606381 (-3) (-38016) (-2) 21697 (-2) (-19130) (-2) 11060 (-2),
  r 7583119 (-3) (-37976) (-2) 21599 (-2) (-19110) (-2) 11010 (-2),
  r 7560000 (-3) (-37934) (-2) 21364 (-2) (-19090) (-2) 10890 (-2),
  r 7514182 (-3) (-37674) (-2) 20896 (-2) (-18960) (-2) 10650 (-2),
  r 7468916 (-3) (-37375) (-2) 20468 (-2) (-18810) (-2) 10430 (-2),
  r 7424192 (-3) (-37017) (-2) 20000 (-2) (-18630) (-2) 10190 (-2),
  r 7380000 (-3) (-36601) (-2) 19651 (-2) (-18420) (-2) 10010 (-2),
  r 7336332 (-3) (-36166) (-2) 19320 (-2) (-18200) (-2) 98390 (-3),
  r 7293177 (-3) (-35751) (-2) 19110 (-2) (-17990) (-2) 97300 (-3),
  r 7250526 (-3) (-35474) (-2) 18950 (-2) (-17850) (-2) 96470 (-3),
  r 7208372 (-3) (-35236) (-2) 18659 (-2) (-17730) (-2) 94980 (-3),
  r 7166706 (-3) (-34958) (-2) 18381 (-2) (-17590) (-2) 93550 (-3),
  r 7125517 (-3) (-34661) (-2) 18160 (-2) (-17440) (-2) 92410 (-3),
  r 7101031 (-3) (-34562) (-2) 18031 (-2) (-17390) (-2) 91750 (-3),
  r 7084800 (-3) (-34502) (-2) 17910 (-2) (-17360) (-2) 91130 (-3),
  r 7044546 (-3) (-34282) (-2) 17560 (-2) (-17250) (-2) 89340 (-3),
  r 6965393 (-3) (-33726) (-2) 16861 (-2) (-16970) (-2) 85760 (-3),
  r 6888000 (-3) (-33091) (-2) 16271 (-2) (-16650) (-2) 82730 (-3),
  r 6701838 (-3) (-31605) (-2) 15000 (-2) (-15900) (-2) 76210 (-3),
  r 6525474 (-3) (-30239) (-2) 13909 (-2) (-15210) (-2) 70620 (-3),
  r 6358154 (-3) (-28951) (-2) 12931 (-2) (-14560) (-2) 65610 (-3),
  r 6199200 (-3) (-27762) (-2) 12020 (-2) (-13960) (-2) 60950 (-3),
  r 5904000 (-3) (-25563) (-2) 10420 (-2) (-12850) (-2) 52780 (-3),
  r 5635636 (-3) (-23561) (-2) 90733 (-3) (-11840) (-2) 45910 (-3),
  r 5390609 (-3) (-21796) (-2) 79342 (-3) (-10950) (-2) 40110 (-3),
  r 5166000 (-3) (-20209) (-2) 69685 (-3) (-10150) (-2) 35200 (-3),
  r 4959360 (-3) (-18721) (-2) 61437 (-3) (-94000) (-3) 31010 (-3),
  r 4768616 (-3) (-17401) (-2) 54381 (-3) (-87350) (-3) 27430 (-3),
  r 4592000 (-3) (-16200) (-2) 48324 (-3) (-81300) (-3) 24360 (-3),
  r 4428000 (-3) (-15121) (-2) 43071 (-3) (-75870) (-3) 21700 (-3),
  r 4275310 (-3) (-14120) (-2) 38525 (-3) (-70830) (-3) 19400 (-3),
  r 4132800 (-3) (-13221) (-2) 34569 (-3) (-66310) (-3) 17400 (-3),
  r 3874500 (-3) (-11630) (-2) 28075 (-3) (-58310) (-3) 14120 (-3),
  r 3646588 (-3) (-10291) (-2) 23060 (-3) (-51580) (-3) 11590 (-3),
  r 3444000 (-3) (-91459) (-3) 19130 (-3) (-45830) (-3) 96090 (-4),
  r 3262737 (-3) (-81619) (-3) 16000 (-3) (-40890) (-3) 80330 (-4),
  r 3099600 (-3) (-73071) (-3) 13500 (-3) (-36600) (-3) 67750 (-4),
  r 2952000 (-3) (-65575) (-3) 11480 (-3) (-32840) (-3) 57590 (-4),
  r 2817818 (-3) (-58895) (-3) 98249 (-4) (-29490) (-3) 49270 (-4),
  r 2695304 (-3) (-52852) (-3) 84635 (-4) (-26460) (-3) 42430 (-4),
  r 2583000 (-3) (-47206) (-3) 73326 (-4) (-23630) (-3) 36750 (-4),
  r 2479680 (-3) (-41538) (-3) 63887 (-4) (-20790) (-3) 32010 (-4),
  r 2384308 (-3) (-34491) (-3) 55923 (-4) (-17260) (-3) 28010 (-4),
  r 2361600 (-3) (-31676) (-3) 54134 (-4) (-15850) (-3) 27110 (-4),
  r 2349072 (-3) (-28840) (-3) 53163 (-4) (-14430) (-3) 26620 (-4),
  r 2348182 (-3) (-28580) (-3) 56659 (-4) (-14300) (-3) 28370 (-4),
  r 2345960 (-3) (-28181) (-3) 63550 (-4) (-14100) (-3) 31820 (-4),
  r 2343743 (-3) (-28081) (-3) 65148 (-4) (-14050) (-3) 32620 (-4),
  r 2339321 (-3) (-27482) (-3) 66548 (-4) (-13750) (-3) 33320 (-4),
  r 2334915 (-3) (-26464) (-3) 66192 (-4) (-13240) (-3) 33140 (-4),
  r 2330526 (-3) (-24926) (-3) 67596 (-4) (-12470) (-3) 33840 (-4),
  r 2326154 (-3) (-23208) (-3) 74254 (-4) (-11610) (-3) 37170 (-4),
  r 2321798 (-3) (-20831) (-3) 77399 (-4) (-10420) (-3) 38740 (-4),
  r 2320060 (-3) (-19340) (-3) 82500 (-4) (-96740) (-4) 41290 (-4),
  r 2318325 (-3) (-17550) (-3) 89342 (-4) (-87780) (-4) 44710 (-4),
  r 2316592 (-3) (-15621) (-3) 10320 (-3) (-78120) (-4) 51640 (-4),
  r 2314862 (-3) (-13701) (-3) 12399 (-3) (-68510) (-4) 62040 (-4),
  r 2313134 (-3) (-11150) (-3) 14820 (-3) (-55740) (-4) 74140 (-4),
  r 2311409 (-3) (-84786) (-4) 18290 (-3) (-42360) (-4) 91490 (-4),
  r 2309687 (-3) (-81721) (-4) 26649 (-3) (-40780) (-4) 13330 (-3),
  r 2307967 (-3) (-13041) (-3) 36376 (-3) (-65060) (-4) 18200 (-3),
  r 2306250 (-3) (-21648) (-3) 39817 (-3) (-10810) (-3) 19930 (-3),
  r 2304535 (-3) (-29873) (-3) 37724 (-3) (-14930) (-3) 18890 (-3),
  r 2300260 (-3) (-38322) (-3) 27507 (-3) (-19170) (-3) 13780 (-3),
  r 2296000 (-3) (-37375) (-3) 19851 (-3) (-18700) (-3) 99440 (-4),
  r 2291756 (-3) (-34718) (-3) 18510 (-3) (-17370) (-3) 92710 (-4),
  r 2287528 (-3) (-33660) (-3) 17840 (-3) (-16840) (-3) 89350 (-4),
  r 2283315 (-3) (-32382) (-3) 17609 (-3) (-16200) (-3) 88190 (-4),
  r 2279118 (-3) (-31444) (-3) 18930 (-3) (-15730) (-3) 94800 (-4),
  r 2274936 (-3) (-32245) (-3) 21106 (-3) (-16130) (-3) 10570 (-3),
  r 2272851 (-3) (-33744) (-3) 21943 (-3) (-16880) (-3) 10990 (-3),
  r 2270769 (-3) (-35280) (-3) 21222 (-3) (-17650) (-3) 10630 (-3),
  r 2266618 (-3) (-36556) (-3) 19450 (-3) (-18290) (-3) 97430 (-4),
  r 2262482 (-3) (-36974) (-3) 18031 (-3) (-18500) (-3) 90320 (-4),
  r 2258361 (-3) (-36513) (-3) 16270 (-3) (-18270) (-3) 81500 (-4),
  r 2254255 (-3) (-35455) (-3) 15710 (-3) (-17740) (-3) 78690 (-4),
  r 2250163 (-3) (-34157) (-3) 15320 (-3) (-17090) (-3) 76730 (-4),
  r 2246087 (-3) (-32940) (-3) 16461 (-3) (-16480) (-3) 82440 (-4),
  r 2242025 (-3) (-33460) (-3) 18269 (-3) (-16740) (-3) 91500 (-4),
  r 2237978 (-3) (-34519) (-3) 18220 (-3) (-17270) (-3) 91260 (-4),
  r 2233946 (-3) (-34778) (-3) 18260 (-3) (-17400) (-3) 91460 (-4),
  r 2229928 (-3) (-35238) (-3) 18961 (-3) (-17630) (-3) 94970 (-4),
  r 2227524 (-3) (-36157) (-3) 19431 (-3) (-18090) (-3) 97330 (-4),
  r 2225925 (-3) (-36875) (-3) 19240 (-3) (-18450) (-3) 96380 (-4),
  r 2221935 (-3) (-38212) (-3) 18179 (-3) (-19120) (-3) 91070 (-4),
  r 2217961 (-3) (-38690) (-3) 16789 (-3) (-19360) (-3) 84110 (-4),
  r 2214000 (-3) (-38549) (-3) 15740 (-3) (-19290) (-3) 78850 (-4),
  r 2206121 (-3) (-38109) (-3) 14480 (-3) (-19070) (-3) 72540 (-4),
  r 2194407 (-3) (-37270) (-3) 13189 (-3) (-18650) (-3) 66070 (-4),
  r 2175158 (-3) (-35911) (-3) 12260 (-3) (-17970) (-3) 61410 (-4),
  r 2156243 (-3) (-34993) (-3) 11919 (-3) (-17510) (-3) 59700 (-4),
  r 2137655 (-3) (-34394) (-3) 11590 (-3) (-17210) (-3) 58050 (-4),
  r 2101424 (-3) (-33335) (-3) 10970 (-3) (-16680) (-3) 54940 (-4),
  r 2066400 (-3) (-32356) (-3) 10389 (-3) (-16190) (-3) 52030 (-4),
  r 1999742 (-3) (-30439) (-3) 93358 (-4) (-15230) (-3) 46750 (-4),
  r 1937250 (-3) (-28521) (-3) 84100 (-4) (-14270) (-3) 42110 (-4),
  r 1878546 (-3) (-26544) (-3) 75959 (-4) (-13280) (-3) 38030 (-4),
  r 1823294 (-3) (-24266) (-3) 68756 (-4) (-12140) (-3) 34420 (-4),
  r 1809985 (-3) (-23567) (-3) 67081 (-4) (-11790) (-3) 33580 (-4),
  r 1796870 (-3) (-22728) (-3) 65465 (-4) (-11370) (-3) 32770 (-4),
  r 1783942 (-3) (-21649) (-3) 64091 (-4) (-10830) (-3) 32080 (-4),
  r 1781379 (-3) (-21370) (-3) 63832 (-4) (-10690) (-3) 31950 (-4),
  r 1778824 (-3) (-21070) (-3) 63553 (-4) (-10540) (-3) 31810 (-4),
  r 1776275 (-3) (-20750) (-3) 63274 (-4) (-10380) (-3) 31670 (-4),
  r 1773734 (-3) (-20351) (-3) 63016 (-4) (-10180) (-3) 31540 (-4),
  r 1771200 (-3) (-19901) (-3) 62737 (-4) (-99550) (-4) 31400 (-4),
  r 1768673 (-3) (-19360) (-3) 62479 (-4) (-96840) (-4) 31270 (-4),
  r 1766154 (-3) (-18670) (-3) 62242 (-4) (-93390) (-4) 31150 (-4),
  r 1763642 (-3) (-17751) (-3) 62025 (-4) (-88790) (-4) 31040 (-4),
  r 1761136 (-3) (-16370) (-3) 61849 (-4) (-81880) (-4) 30950 (-4),
  r 1759887 (-3) (-15311) (-3) 61953 (-4) (-76580) (-4) 31000 (-4),
  r 1758638 (-3) (-13710) (-3) 63217 (-4) (-68570) (-4) 31630 (-4),
  r 1757392 (-3) (-11270) (-3) 69461 (-4) (-56360) (-4) 34750 (-4),
  r 1756147 (-3) (-83003) (-4) 90662 (-4) (-41500) (-4) 45350 (-4),
  r 1754905 (-3) (-62719) (-4) 13990 (-3) (-31340) (-4) 69970 (-4),
  r 1753663 (-3) (-75401) (-4) 21492 (-3) (-37650) (-4) 10750 (-3),
  r 1752672 (-3) (-11901) (-3) 27024 (-3) (-59430) (-4) 13520 (-3),
  r 1752176 (-3) (-14931) (-3) 28719 (-3) (-74580) (-4) 14370 (-3),
  r 1751681 (-3) (-18181) (-3) 29353 (-3) (-90840) (-4) 14690 (-3),
  r 1751186 (-3) (-21370) (-3) 28889 (-3) (-10680) (-3) 14460 (-3),
  r 1750692 (-3) (-24364) (-3) 27427 (-3) (-12180) (-3) 13730 (-3),
  r 1750198 (-3) (-26818) (-3) 25266 (-3) (-13410) (-3) 12650 (-3),
  r 1749704 (-3) (-28573) (-3) 22867 (-3) (-14290) (-3) 11450 (-3),
  r 1749210 (-3) (-29609) (-3) 20470 (-3) (-14810) (-3) 10250 (-3),
  r 1748717 (-3) (-29946) (-3) 18161 (-3) (-14980) (-3) 90940 (-4),
  r 1747484 (-3) (-29084) (-3) 14259 (-3) (-14550) (-3) 71400 (-4),
  r 1746254 (-3) (-27645) (-3) 13260 (-3) (-13830) (-3) 66390 (-4),
  r 1745025 (-3) (-27166) (-3) 13150 (-3) (-13590) (-3) 65840 (-4),
  r 1743798 (-3) (-27405) (-3) 12299 (-3) (-13710) (-3) 61580 (-4),
  r 1742572 (-3) (-27424) (-3) 10789 (-3) (-13720) (-3) 54020 (-4),
  r 1741348 (-3) (-26864) (-3) 94513 (-4) (-13440) (-3) 47320 (-4),
  r 1740126 (-3) (-25925) (-3) 87167 (-4) (-12970) (-3) 43640 (-4),
  r 1738906 (-3) (-25046) (-3) 84394 (-4) (-12530) (-3) 42250 (-4),
  r 1736471 (-3) (-23887) (-3) 83380 (-4) (-11950) (-3) 41740 (-4),
  r 1734042 (-3) (-23128) (-3) 83164 (-4) (-11570) (-3) 41630 (-4),
  r 1731620 (-3) (-22489) (-3) 82947 (-4) (-11250) (-3) 41520 (-4),
  r 1729205 (-3) (-21790) (-3) 82750 (-4) (-10900) (-3) 41420 (-4),
  r 1726797 (-3) (-20651) (-3) 83374 (-4) (-10330) (-3) 41730 (-4),
  r 1724395 (-3) (-19001) (-3) 94710 (-4) (-95040) (-4) 47400 (-4),
  r 1722000 (-3) (-19341) (-3) 13269 (-3) (-96730) (-4) 66410 (-4),
  r 1721522 (-3) (-19981) (-3) 13960 (-3) (-99930) (-4) 69870 (-4),
  r 1721044 (-3) (-20754) (-3) 14419 (-3) (-10380) (-3) 72170 (-4),
  r 1720566 (-3) (-21614) (-3) 14600 (-3) (-10810) (-3) 73080 (-4),
  r 1720089 (-3) (-22473) (-3) 14470 (-3) (-11240) (-3) 72430 (-4),
  r 1719612 (-3) (-23211) (-3) 14070 (-3) (-11610) (-3) 70430 (-4),
  r 1719135 (-3) (-23810) (-3) 13470 (-3) (-11910) (-3) 67430 (-4),
  r 1718420 (-3) (-24389) (-3) 12501 (-3) (-12200) (-3) 62580 (-4),
  r 1717230 (-3) (-24528) (-3) 11290 (-3) (-12270) (-3) 56520 (-4),
  r 1716042 (-3) (-24188) (-3) 10669 (-3) (-12100) (-3) 53410 (-4),
  r 1714855 (-3) (-23968) (-3) 10589 (-3) (-11990) (-3) 53010 (-4),
  r 1713670 (-3) (-23988) (-3) 10499 (-3) (-12000) (-3) 52560 (-4),
  r 1712486 (-3) (-24068) (-3) 10170 (-3) (-12040) (-3) 50910 (-4),
  r 1711304 (-3) (-24028) (-3) 97403 (-4) (-12020) (-3) 48760 (-4),
  r 1710124 (-3) (-23848) (-3) 94287 (-4) (-11930) (-3) 47200 (-4),
  r 1707769 (-3) (-23408) (-3) 92212 (-4) (-11710) (-3) 46160 (-4),
  r 1705420 (-3) (-23129) (-3) 91854 (-4) (-11570) (-3) 45980 (-4),
  r 1703077 (-3) (-22969) (-3) 91575 (-4) (-11490) (-3) 45840 (-4),
  r 1700741 (-3) (-22849) (-3) 91316 (-4) (-11430) (-3) 45710 (-4),
  r 1698411 (-3) (-22769) (-3) 91036 (-4) (-11390) (-3) 45570 (-4),
  r 1686857 (-3) (-22449) (-3) 89619 (-4) (-11230) (-3) 44860 (-4),
  r 1675460 (-3) (-22230) (-3) 88202 (-4) (-11120) (-3) 44150 (-4),
  r 1664215 (-3) (-22050) (-3) 86824 (-4) (-11030) (-3) 43460 (-4),
  r 1653120 (-3) (-21850) (-3) 85447 (-4) (-10930) (-3) 42770 (-4),
  r 1642172 (-3) (-21670) (-3) 84129 (-4) (-10840) (-3) 42110 (-4),
  r 1631368 (-3) (-21510) (-3) 82811 (-4) (-10760) (-3) 41450 (-4),
  r 1620706 (-3) (-21330) (-3) 81553 (-4) (-10670) (-3) 40820 (-4),
  r 1610182 (-3) (-21150) (-3) 80295 (-4) (-10580) (-3) 40190 (-4),
  r 1599794 (-3) (-20971) (-3) 79097 (-4) (-10490) (-3) 39590 (-4),
  r 1589539 (-3) (-20791) (-3) 77919 (-4) (-10400) (-3) 39000 (-4),
  r 1579414 (-3) (-20631) (-3) 76741 (-4) (-10320) (-3) 38410 (-4),
  r 1569418 (-3) (-20471) (-3) 75622 (-4) (-10240) (-3) 37850 (-4),
  r 1559547 (-3) (-20311) (-3) 74524 (-4) (-10160) (-3) 37300 (-4),
  r 1549800 (-3) (-20171) (-3) 73446 (-4) (-10090) (-3) 36760 (-4),
  r 1540174 (-3) (-20031) (-3) 71968 (-4) (-10020) (-3) 36020 (-4),
  r 1530667 (-3) (-19859) (-3) 70530 (-4) (-99340) (-4) 35300 (-4),
  r 1521276 (-3) (-19689) (-3) 69112 (-4) (-98490) (-4) 34590 (-4),
  r 1512000 (-3) (-19510) (-3) 67734 (-4) (-97590) (-4) 33900 (-4),
  r 1502836 (-3) (-19320) (-3) 66396 (-4) (-96640) (-4) 33230 (-4),
  r 1493783 (-3) (-19130) (-3) 65098 (-4) (-95690) (-4) 32580 (-4),
  r 1484838 (-3) (-18920) (-3) 63820 (-4) (-94640) (-4) 31940 (-4),
  r 1479523 (-3) (-18780) (-3) 63041 (-4) (-93940) (-4) 31550 (-4),
  r 1477759 (-3) (-18730) (-3) 62841 (-4) (-93690) (-4) 31450 (-4),
  r 1476000 (-3) (-18680) (-3) 62641 (-4) (-93440) (-4) 31350 (-4),
  r 1474245 (-3) (-18630) (-3) 62462 (-4) (-93190) (-4) 31260 (-4),
  r 1472494 (-3) (-18580) (-3) 62262 (-4) (-92940) (-4) 31160 (-4),
  r 1470747 (-3) (-18530) (-3) 62022 (-4) (-92690) (-4) 31040 (-4),
  r 1469005 (-3) (-18470) (-3) 61783 (-4) (-92390) (-4) 30920 (-4),
  r 1467266 (-3) (-18400) (-3) 61563 (-4) (-92040) (-4) 30810 (-4),
  r 1465532 (-3) (-18321) (-3) 61484 (-4) (-91640) (-4) 30770 (-4),
  r 1463802 (-3) (-18231) (-3) 61644 (-4) (-91190) (-4) 30850 (-4),
  r 1462076 (-3) (-18151) (-3) 62183 (-4) (-90790) (-4) 31120 (-4),
  r 1460353 (-3) (-18121) (-3) 62723 (-4) (-90640) (-4) 31390 (-4),
  r 1458635 (-3) (-18101) (-3) 63263 (-4) (-90540) (-4) 31660 (-4),
  r 1456921 (-3) (-18101) (-3) 63522 (-4) (-90540) (-4) 31790 (-4),
  r 1455211 (-3) (-18091) (-3) 63782 (-4) (-90490) (-4) 31920 (-4),
  r 1453505 (-3) (-18091) (-3) 64022 (-4) (-90490) (-4) 32040 (-4),
  r 1451803 (-3) (-18101) (-3) 64242 (-4) (-90540) (-4) 32150 (-4),
  r 1450105 (-3) (-18121) (-3) 64442 (-4) (-90640) (-4) 32250 (-4),
  r 1448411 (-3) (-18161) (-3) 64461 (-4) (-90840) (-4) 32260 (-4),
  r 1446721 (-3) (-18201) (-3) 64122 (-4) (-91040) (-4) 32090 (-4),
  r 1445035 (-3) (-18221) (-3) 63622 (-4) (-91140) (-4) 31840 (-4),
  r 1443353 (-3) (-18221) (-3) 63042 (-4) (-91140) (-4) 31550 (-4),
  r 1441674 (-3) (-18211) (-3) 62503 (-4) (-91090) (-4) 31280 (-4),
  r 1440000 (-3) (-18191) (-3) 62004 (-4) (-90990) (-4) 31030 (-4),
  r 1438329 (-3) (-18151) (-3) 61544 (-4) (-90790) (-4) 30800 (-4),
  r 1436663 (-3) (-18121) (-3) 61204 (-4) (-90640) (-4) 30630 (-4),
  r 1435000 (-3) (-18081) (-3) 60925 (-4) (-90440) (-4) 30490 (-4),
  r 1433341 (-3) (-18051) (-3) 60645 (-4) (-90290) (-4) 30350 (-4),
  r 1431686 (-3) (-18021) (-3) 60366 (-4) (-90140) (-4) 30210 (-4),
  r 1430035 (-3) (-18001) (-3) 60126 (-4) (-90040) (-4) 30090 (-4),
  r 1428387 (-3) (-17961) (-3) 59886 (-4) (-89840) (-4) 29970 (-4),
  r 1426743 (-3) (-17941) (-3) 59646 (-4) (-89740) (-4) 29850 (-4),
  r 1425104 (-3) (-17911) (-3) 59407 (-4) (-89590) (-4) 29730 (-4),
  r 1421835 (-3) (-17851) (-3) 58887 (-4) (-89290) (-4) 29470 (-4),
  r 1418581 (-3) (-17801) (-3) 58388 (-4) (-89040) (-4) 29220 (-4),
  r 1415343 (-3) (-17741) (-3) 57869 (-4) (-88740) (-4) 28960 (-4),
  r 1412118 (-3) (-17671) (-3) 57309 (-4) (-88390) (-4) 28680 (-4),
  r 1408909 (-3) (-17601) (-3) 56830 (-4) (-88040) (-4) 28440 (-4),
  r 1405714 (-3) (-17531) (-3) 56430 (-4) (-87690) (-4) 28240 (-4),
  r 1402534 (-3) (-17461) (-3) 56071 (-4) (-87340) (-4) 28060 (-4),
  r 1399368 (-3) (-17391) (-3) 55751 (-4) (-86990) (-4) 27900 (-4),
  r 1396216 (-3) (-17321) (-3) 55452 (-4) (-86640) (-4) 27750 (-4),
  r 1393079 (-3) (-17259) (-3) 55172 (-4) (-86330) (-4) 27610 (-4),
  r 1385296 (-3) (-17129) (-3) 54453 (-4) (-85680) (-4) 27250 (-4),
  r 1377600 (-3) (-16999) (-3) 53634 (-4) (-85030) (-4) 26840 (-4),
  r 1373023 (-3) (-16920) (-3) 53095 (-4) (-84630) (-4) 26570 (-4),
  r 1369989 (-3) (-16880) (-3) 52695 (-4) (-84430) (-4) 26370 (-4),
  r 1362462 (-3) (-16740) (-3) 51677 (-4) (-83730) (-4) 25860 (-4),
  r 1355016 (-3) (-16600) (-3) 50638 (-4) (-83030) (-4) 25340 (-4),
  r 1347652 (-3) (-16460) (-3) 49639 (-4) (-82330) (-4) 24840 (-4),
  r 1340368 (-3) (-16310) (-3) 48700 (-4) (-81580) (-4) 24370 (-4),
  r 1333161 (-3) (-16160) (-3) 47881 (-4) (-80830) (-4) 23960 (-4),
  r 1326032 (-3) (-16020) (-3) 47062 (-4) (-80130) (-4) 23550 (-4),
  r 1318979 (-3) (-15870) (-3) 46283 (-4) (-79380) (-4) 23160 (-4),
  r 1312000 (-3) (-15730) (-3) 45524 (-4) (-78680) (-4) 22780 (-4),
  r 1305095 (-3) (-15600) (-3) 44785 (-4) (-78030) (-4) 22410 (-4),
  r 1298262 (-3) (-15470) (-3) 44066 (-4) (-77380) (-4) 22050 (-4),
  r 1291500 (-3) (-15341) (-3) 43287 (-4) (-76730) (-4) 21660 (-4),
  r 1284808 (-3) (-15201) (-3) 42548 (-4) (-76030) (-4) 21290 (-4),
  r 1278186 (-3) (-15071) (-3) 41808 (-4) (-75380) (-4) 20920 (-4),
  r 1271631 (-3) (-14941) (-3) 41089 (-4) (-74730) (-4) 20560 (-4),
  r 1265143 (-3) (-14811) (-3) 40370 (-4) (-74080) (-4) 20200 (-4),
  r 1258721 (-3) (-14681) (-3) 39691 (-4) (-73430) (-4) 19860 (-4),
  r 1252364 (-3) (-14551) (-3) 39012 (-4) (-72780) (-4) 19520 (-4),
  r 1246070 (-3) (-14431) (-3) 38352 (-4) (-72180) (-4) 19190 (-4),
  r 1239840 (-3) (-14299) (-3) 37713 (-4) (-71520) (-4) 18870 (-4),
  r 1180800 (-3) (-13110) (-3) 31939 (-4) (-65570) (-4) 15980 (-4),
  r 1127127 (-3) (-12021) (-3) 27204 (-4) (-60120) (-4) 13610 (-4),
  r 1078122 (-3) (-11031) (-3) 23307 (-4) (-55170) (-4) 11660 (-4),
  r 1033200 (-3) (-10130) (-3) 20090 (-4) (-50660) (-4) 10050 (-4),
  r 9918720 (-4) (-92799) (-4) 17400 (-4) (-46410) (-4) 87040 (-5),
  r 9537231 (-4) (-81944) (-4) 15150 (-4) (-40980) (-4) 75780 (-5),
  r 9531365 (-4) (-81524) (-4) 15110 (-4) (-40770) (-4) 75580 (-5),
  r 9529900 (-4) (-81444) (-4) 15270 (-4) (-40730) (-4) 76380 (-5),
  r 9522581 (-4) (-80984) (-4) 15630 (-4) (-40500) (-4) 78180 (-5),
  r 9515273 (-4) (-80664) (-4) 15670 (-4) (-40340) (-4) 78380 (-5),
  r 9507976 (-4) (-80145) (-4) 15630 (-4) (-40080) (-4) 78180 (-5),
  r 9500690 (-4) (-79445) (-4) 15670 (-4) (-39730) (-4) 78380 (-5),
  r 9493415 (-4) (-78545) (-4) 15950 (-4) (-39280) (-4) 79780 (-5),
  r 9486152 (-4) (-77226) (-4) 16060 (-4) (-38620) (-4) 80330 (-5),
  r 9478899 (-4) (-75267) (-4) 16870 (-4) (-37640) (-4) 84380 (-5),
  r 9471658 (-4) (-72308) (-4) 19269 (-4) (-36160) (-4) 96380 (-5),
  r 9468764 (-4) (-72748) (-4) 20852 (-4) (-36380) (-4) 10430 (-4),
  r 9465872 (-4) (-74048) (-4) 24671 (-4) (-37030) (-4) 12340 (-4),
  r 9462984 (-4) (-75708) (-4) 29149 (-4) (-37860) (-4) 14580 (-4),
  r 9460095 (-4) (-77287) (-4) 30728 (-4) (-38650) (-4) 15370 (-4),
  r 9457208 (-4) (-79546) (-4) 29748 (-4) (-39780) (-4) 14880 (-4),
  r 9454323 (-4) (-82205) (-4) 27968 (-4) (-41110) (-4) 13990 (-4),
  r 9451440 (-4) (-84164) (-4) 26189 (-4) (-42090) (-4) 13100 (-4),
  r 9448560 (-4) (-84943) (-4) 23930 (-4) (-42480) (-4) 11970 (-4),
  r 9445681 (-4) (-85023) (-4) 22470 (-4) (-42520) (-4) 11240 (-4),
  r 9442803 (-4) (-84843) (-4) 21491 (-4) (-42430) (-4) 10750 (-4),
  r 9435617 (-4) (-83564) (-4) 20851 (-4) (-41790) (-4) 10430 (-4),
  r 9428441 (-4) (-82784) (-4) 20531 (-4) (-41400) (-4) 10270 (-4),
  r 9421277 (-4) (-82144) (-4) 20392 (-4) (-41080) (-4) 10200 (-4),
  r 9414123 (-4) (-81804) (-4) 20991 (-4) (-40910) (-4) 10500 (-4),
  r 9406980 (-4) (-82224) (-4) 21991 (-4) (-41120) (-4) 11000 (-4),
  r 9399849 (-4) (-83104) (-4) 22011 (-4) (-41560) (-4) 11010 (-4),
  r 9392728 (-4) (-83824) (-4) 21171 (-4) (-41920) (-4) 10590 (-4),
  r 9385617 (-4) (-83963) (-4) 20511 (-4) (-41990) (-4) 10260 (-4),
  r 9378518 (-4) (-83703) (-4) 19670 (-4) (-41860) (-4) 98390 (-5),
  r 9371429 (-4) (-83164) (-4) 19390 (-4) (-41590) (-4) 96990 (-5),
  r 9364351 (-4) (-82464) (-4) 19190 (-4) (-41240) (-4) 95990 (-5),
  r 9357283 (-4) (-82044) (-4) 19700 (-4) (-41030) (-4) 98540 (-5),
  r 9350227 (-4) (-82084) (-4) 20532 (-4) (-41050) (-4) 10270 (-4),
  r 9343181 (-4) (-82364) (-4) 20492 (-4) (-41190) (-4) 10250 (-4),
  r 9336145 (-4) (-82564) (-4) 20472 (-4) (-41290) (-4) 10240 (-4),
  r 9329120 (-4) (-82864) (-4) 20791 (-4) (-41440) (-4) 10400 (-4),
  r 9324910 (-4) (-83144) (-4) 21011 (-4) (-41580) (-4) 10510 (-4),
  r 9322105 (-4) (-83384) (-4) 20911 (-4) (-41700) (-4) 10460 (-4),
  r 9315102 (-4) (-83943) (-4) 20391 (-4) (-41980) (-4) 10200 (-4),
  r 9308108 (-4) (-84123) (-4) 19720 (-4) (-42070) (-4) 98640 (-5),
  r 9301126 (-4) (-84043) (-4) 19210 (-4) (-42030) (-4) 96090 (-5),
  r 9287191 (-4) (-83663) (-4) 18580 (-4) (-41840) (-4) 92940 (-5),
  r 9252537 (-4) (-82804) (-4) 17751 (-4) (-41410) (-4) 88790 (-5),
  r 9184000 (-4) (-81344) (-4) 16929 (-4) (-40680) (-4) 84680 (-5),
  r 9116471 (-4) (-80125) (-4) 16489 (-4) (-40070) (-4) 82480 (-5),
  r 8984348 (-4) (-78045) (-4) 15670 (-4) (-39030) (-4) 78380 (-5),
  r 8856000 (-4) (-76066) (-4) 14890 (-4) (-38040) (-4) 74480 (-5),
  r 8550621 (-4) (-71368) (-4) 13149 (-4) (-35690) (-4) 65770 (-5),
  r 8265600 (-4) (-66969) (-4) 11660 (-4) (-33490) (-4) 58320 (-5),
  r 7749000 (-4) (-59091) (-4) 92593 (-5) (-29550) (-4) 46310 (-5),
  r 7293177 (-4) (-52253) (-4) 74441 (-5) (-26130) (-4) 37230 (-5),
  r 6888000 (-4) (-45915) (-4) 60546 (-5) (-22960) (-4) 30280 (-5),
  r 6756621 (-4) (-42576) (-4) 56448 (-5) (-21290) (-4) 28230 (-5),
  r 6753677 (-4) (-42416) (-4) 56368 (-5) (-21210) (-4) 28190 (-5),
  r 6752941 (-4) (-42396) (-4) 57048 (-5) (-21200) (-4) 28530 (-5),
  r 6749265 (-4) (-42196) (-4) 58728 (-5) (-21100) (-4) 29370 (-5),
  r 6745593 (-4) (-42016) (-4) 58968 (-5) (-21010) (-4) 29490 (-5),
  r 6741925 (-4) (-41796) (-4) 58868 (-5) (-20900) (-4) 29440 (-5),
  r 6738261 (-4) (-41516) (-4) 59108 (-5) (-20760) (-4) 29560 (-5),
  r 6734601 (-4) (-41076) (-4) 60428 (-5) (-20540) (-4) 30220 (-5),
  r 6730945 (-4) (-40436) (-4) 61028 (-5) (-20220) (-4) 30520 (-5),
  r 6727293 (-4) (-39296) (-4) 64647 (-5) (-19650) (-4) 32330 (-5),
  r 6723644 (-4) (-38936) (-4) 75365 (-5) (-19470) (-4) 37690 (-5),
  r 6722186 (-4) (-39376) (-4) 82424 (-5) (-19690) (-4) 41220 (-5),
  r 6720729 (-4) (-39856) (-4) 99440 (-5) (-19930) (-4) 49730 (-5),
  r 6719272 (-4) (-40416) (-4) 11930 (-4) (-20210) (-4) 59660 (-5),
  r 6717815 (-4) (-40916) (-4) 12629 (-4) (-20460) (-4) 63160 (-5),
  r 6716360 (-4) (-41376) (-4) 12199 (-4) (-20690) (-4) 61009 (-5),
  r 6714905 (-4) (-41916) (-4) 11420 (-4) (-20960) (-4) 57111 (-5),
  r 6713450 (-4) (-42756) (-4) 10630 (-4) (-21380) (-4) 53160 (-5),
  r 6711997 (-4) (-43555) (-4) 96299 (-5) (-21780) (-4) 48160 (-5),
  r 6710544 (-4) (-43935) (-4) 89840 (-5) (-21970) (-4) 44930 (-5),
  r 6709091 (-4) (-43975) (-4) 85541 (-5) (-21990) (-4) 42780 (-5),
  r 6707639 (-4) (-43895) (-4) 83362 (-5) (-21950) (-4) 41690 (-5),
  r 6706188 (-4) (-43695) (-4) 82942 (-5) (-21850) (-4) 41480 (-5),
  r 6704737 (-4) (-43435) (-4) 82542 (-5) (-21720) (-4) 41280 (-5),
  r 6703287 (-4) (-43196) (-4) 81782 (-5) (-21600) (-4) 40900 (-5),
  r 6701838 (-4) (-43016) (-4) 81382 (-5) (-21510) (-4) 40700 (-5),
  r 6698217 (-4) (-42776) (-4) 80903 (-5) (-21390) (-4) 40460 (-5),
  r 6694600 (-4) (-42736) (-4) 83622 (-5) (-21370) (-4) 41820 (-5),
  r 6690988 (-4) (-42896) (-4) 88101 (-5) (-21450) (-4) 44060 (-5),
  r 6687379 (-4) (-43156) (-4) 88321 (-5) (-21580) (-4) 44170 (-5),
  r 6683774 (-4) (-43495) (-4) 84662 (-5) (-21750) (-4) 42340 (-5),
  r 6680173 (-4) (-43595) (-4) 81722 (-5) (-21800) (-4) 40870 (-5),
  r 6676575 (-4) (-43495) (-4) 78063 (-5) (-21750) (-4) 39040 (-5),
  r 6672982 (-4) (-43256) (-4) 76883 (-5) (-21630) (-4) 38450 (-5),
  r 6669392 (-4) (-42956) (-4) 76064 (-5) (-21480) (-4) 38040 (-5),
  r 6665807 (-4) (-42876) (-4) 78423 (-5) (-21440) (-4) 39220 (-5),
  r 6662225 (-4) (-42816) (-4) 82182 (-5) (-21410) (-4) 41100 (-5),
  r 6658647 (-4) (-42876) (-4) 82062 (-5) (-21440) (-4) 41040 (-5),
  r 6655073 (-4) (-43036) (-4) 82122 (-5) (-21520) (-4) 41070 (-5),
  r 6651502 (-4) (-43216) (-4) 83582 (-5) (-21610) (-4) 41800 (-5),
  r 6649362 (-4) (-43315) (-4) 84562 (-5) (-21660) (-4) 42290 (-5),
  r 6647936 (-4) (-43395) (-4) 84162 (-5) (-21700) (-4) 42090 (-5),
  r 6644373 (-4) (-43595) (-4) 81922 (-5) (-21800) (-4) 40970 (-5),
  r 6640814 (-4) (-43715) (-4) 79003 (-5) (-21860) (-4) 39510 (-5),
  r 6637260 (-4) (-43695) (-4) 76783 (-5) (-21850) (-4) 38400 (-5),
  r 6633708 (-4) (-43615) (-4) 75264 (-5) (-21810) (-4) 37640 (-5),
  r 6630160 (-4) (-43515) (-4) 74084 (-5) (-21760) (-4) 37050 (-5),
  r 6626617 (-4) (-43395) (-4) 72924 (-5) (-21700) (-4) 36470 (-5),
  r 6623077 (-4) (-43315) (-4) 72804 (-5) (-21660) (-4) 36410 (-5),
  r 6619541 (-4) (-43215) (-4) 72704 (-5) (-21610) (-4) 36360 (-5),
  r 6616008 (-4) (-43175) (-4) 72584 (-5) (-21590) (-4) 36300 (-5),
  r 6612480 (-4) (-43155) (-4) 72484 (-5) (-21580) (-4) 36250 (-5),
  r 6594894 (-4) (-42896) (-4) 69885 (-5) (-21450) (-4) 34950 (-5),
  r 6525474 (-4) (-42016) (-4) 67326 (-5) (-21010) (-4) 33670 (-5),
  r 6199200 (-4) (-38396) (-4) 56129 (-5) (-19200) (-4) 28070 (-5),
  r 5635637 (-4) (-32137) (-4) 39894 (-5) (-16070) (-4) 19950 (-5),
  r 5166000 (-4) (-27138) (-4) 29116 (-5) (-13570) (-4) 14560 (-5),
  r 4768615 (-4) (-23179) (-4) 21757 (-5) (-11590) (-4) 10880 (-5),
  r 4428000 (-4) (-19999) (-4) 16560 (-5) (-10000) (-4) 82810 (-6),
  r 4132800 (-4) (-17419) (-4) 12841 (-5) (-87100) (-5) 64210 (-6),
  r 3542400 (-4) (-12790) (-4) 72295 (-6) (-63950) (-5) 36150 (-6),
  r 3099600 (-4) (-97598) (-5) 43758 (-6) (-48800) (-5) 21880 (-6),
  r 2755200 (-4) (-76879) (-5) 28019 (-6) (-38440) (-5) 14010 (-6),
  r 2479680 (-4) (-61819) (-5) 18759 (-6) (-30910) (-5) 93800 (-7),
  r 2254255 (-4) (-51039) (-5) 13030 (-6) (-25520) (-5) 65150 (-7),
  r 2066400 (-4) (-42700) (-5) 93318 (-7) (-21350) (-5) 46660 (-7),
  r 1907446 (-4) (-36020) (-5) 68579 (-7) (-18010) (-5) 34290 (-7),
  r 1771200 (-4) (-30420) (-5) 51519 (-7) (-15210) (-5) 25760 (-7),
  r 1746254 (-4) (-28640) (-5) 48779 (-7) (-14320) (-5) 24390 (-7),
  r 1745025 (-4) (-28420) (-5) 48639 (-7) (-14210) (-5) 24320 (-7),
  r 1744779 (-4) (-28340) (-5) 49979 (-7) (-14170) (-5) 24990 (-7),
  r 1744534 (-4) (-28240) (-5) 51299 (-7) (-14120) (-5) 25650 (-7),
  r 1744288 (-4) (-28100) (-5) 53999 (-7) (-14050) (-5) 27000 (-7),
  r 1744043 (-4) (-27980) (-5) 55319 (-7) (-13990) (-5) 27660 (-7),
  r 1743797 (-4) (-27880) (-5) 55299 (-7) (-13940) (-5) 27650 (-7),
  r 1743552 (-4) (-27800) (-5) 55259 (-7) (-13900) (-5) 27630 (-7),
  r 1743307 (-4) (-27720) (-5) 56599 (-7) (-13860) (-5) 28300 (-7),
  r 1743062 (-4) (-27660) (-5) 61999 (-7) (-13830) (-5) 31000 (-7),
  r 1742817 (-4) (-27620) (-5) 75519 (-7) (-13810) (-5) 37760 (-7),
  r 1742572 (-4) (-27580) (-5) 10260 (-6) (-13790) (-5) 51300 (-7),
  r 1742327 (-4) (-27580) (-5) 12970 (-6) (-13790) (-5) 64850 (-7),
  r 1742082 (-4) (-27620) (-5) 15680 (-6) (-13810) (-5) 78400 (-7),
  r 1741838 (-4) (-27660) (-5) 17430 (-6) (-13830) (-5) 87150 (-7),
  r 1741593 (-4) (-27720) (-5) 19190 (-6) (-13860) (-5) 95950 (-7),
  r 1741348 (-4) (-27760) (-5) 20820 (-6) (-13880) (-5) 10410 (-6),
  r 1741104 (-4) (-27840) (-5) 22440 (-6) (-13920) (-5) 11220 (-6),
  r 1740859 (-4) (-27960) (-5) 23920 (-6) (-13980) (-5) 11960 (-6),
  r 1740615 (-4) (-28080) (-5) 24860 (-6) (-14040) (-5) 12430 (-6),
  r 1740371 (-4) (-28200) (-5) 24460 (-6) (-14100) (-5) 12230 (-6),
  r 1740126 (-4) (-28300) (-5) 23500 (-6) (-14150) (-5) 11750 (-6),
  r 1739882 (-4) (-28400) (-5) 22280 (-6) (-14200) (-5) 11140 (-6),
  r 1739638 (-4) (-28500) (-5) 21200 (-6) (-14250) (-5) 10600 (-6),
  r 1739394 (-4) (-28600) (-5) 20239 (-6) (-14300) (-5) 10120 (-6),
  r 1739150 (-4) (-28700) (-5) 19420 (-6) (-14350) (-5) 97100 (-7),
  r 1738906 (-4) (-28800) (-5) 19010 (-6) (-14400) (-5) 95051 (-7),
  r 1737688 (-4) (-28840) (-5) 18230 (-6) (-14420) (-5) 91150 (-7),
  r 1736471 (-4) (-28840) (-5) 17610 (-6) (-14420) (-5) 88050 (-7),
  r 1735256 (-4) (-28780) (-5) 16670 (-6) (-14390) (-5) 83350 (-7),
  r 1734042 (-4) (-28700) (-5) 16620 (-6) (-14350) (-5) 83100 (-7),
  r 1732830 (-4) (-28620) (-5) 17410 (-6) (-14310) (-5) 87050 (-7),
  r 1731620 (-4) (-28620) (-5) 18460 (-6) (-14310) (-5) 92300 (-7),
  r 1730412 (-4) (-28660) (-5) 19110 (-6) (-14330) (-5) 95550 (-7),
  r 1729205 (-4) (-28740) (-5) 19360 (-6) (-14370) (-5) 96800 (-7),
  r 1728000 (-4) (-28800) (-5) 19070 (-6) (-14400) (-5) 95350 (-7),
  r 1726797 (-4) (-28820) (-5) 18510 (-6) (-14410) (-5) 92550 (-7),
  r 1725595 (-4) (-28820) (-5) 18090 (-6) (-14410) (-5) 90450 (-7),
  r 1724395 (-4) (-28780) (-5) 17660 (-6) (-14390) (-5) 88300 (-7),
  r 1723197 (-4) (-28760) (-5) 17640 (-6) (-14380) (-5) 88200 (-7),
  r 1722000 (-4) (-28740) (-5) 17680 (-6) (-14370) (-5) 88400 (-7),
  r 1719612 (-4) (-28700) (-5) 17770 (-6) (-14350) (-5) 88850 (-7),
  r 1717230 (-4) (-28700) (-5) 18070 (-6) (-14350) (-5) 90350 (-7),
  r 1698411 (-4) (-28340) (-5) 15760 (-6) (-14170) (-5) 78800 (-7),
  r 1675459 (-4) (-27680) (-5) 15000 (-6) (-13840) (-5) 75000 (-7),
  r 1653120 (-4) (-27060) (-5) 14280 (-6) (-13530) (-5) 71400 (-7),
  r 1631369 (-4) (-26420) (-5) 13610 (-6) (-13210) (-5) 68050 (-7),
  r 1610182 (-4) (-25800) (-5) 12980 (-6) (-12900) (-5) 64900 (-7),
  r 1589538 (-4) (-25200) (-5) 12380 (-6) (-12600) (-5) 61900 (-7),
  r 1569418 (-4) (-24600) (-5) 11820 (-6) (-12300) (-5) 59100 (-7),
  r 1549800 (-4) (-24040) (-5) 11280 (-6) (-12020) (-5) 56400 (-7),
  r 1512000 (-4) (-22940) (-5) 10310 (-6) (-11470) (-5) 51550 (-7),
  r 1476000 (-4) (-21900) (-5) 94339 (-7) (-10950) (-5) 47170 (-7),
  r 1441674 (-4) (-20940) (-5) 86519 (-7) (-10470) (-5) 43260 (-7),
  r 1408909 (-4) (-20000) (-5) 79499 (-7) (-10000) (-5) 39750 (-7),
  r 1377600 (-4) (-19140) (-5) 73159 (-7) (-95700) (-6) 36580 (-7),
  r 1305095 (-4) (-17210) (-5) 59899 (-7) (-86050) (-6) 29950 (-7),
  r 1239840 (-4) (-15560) (-5) 49500 (-7) (-77800) (-6) 24750 (-7),
  r 1127127 (-4) (-12880) (-5) 34680 (-7) (-64400) (-6) 17340 (-7),
  r 1033200 (-4) (-10820) (-5) 25020 (-7) (-54100) (-6) 12510 (-7),
  r 9537231 (-5) (-92280) (-6) 18500 (-7) (-46140) (-6) 92500 (-8),
  r 8856000 (-5) (-79540) (-6) 13970 (-7) (-39770) (-6) 69850 (-8),
  r 8265600 (-5) (-69260) (-6) 10750 (-7) (-34630) (-6) 53750 (-8),
  r 7749000 (-5) (-60860) (-6) 84040 (-8) (-30430) (-6) 42020 (-8),
  r 7293177 (-5) (-53900) (-6) 66640 (-8) (-26950) (-6) 33320 (-8),
  r 6888000 (-5) (-48060) (-6) 53520 (-8) (-24030) (-6) 26760 (-8),
  r 6525474 (-5) (-43120) (-6) 43460 (-8) (-21560) (-6) 21730 (-8),
  r 6199200 (-5) (-38900) (-6) 35660 (-8) (-19450) (-6) 17830 (-8)]

set_option maxRecDepth 20000 in
/-- data/callindex.out_CpaD03_0.10:9-394 -/
def parallel : List Row := [
  r 1239840 5 (-16885) 1 45926 4 15051 2 15156 2,
  r 1239840 4 (-16884) 1 45925 3 46836 1 48002 1,
  r 2000065 3 (-16869) 1 74028 2 18034 1 19446 1,
  r 1499927 3 (-16856) 1 55483 2 15420 1 16895 1,
  r 1239840 3 (-16843) 1 45833 2 13879 1 15402 1,
  r 1200232 3 (-16840) 1 44363 2 13630 1 15162 1,
  r 9998710 2 (-16820) 1 36922 2 12299 1 13881 1,
  r 7000791 2 (-16754) 1 25768 2 10009 1 11703 1,
  r 4999355 2 (-16630) 1 18291 2 81636 0 99800 0,
  r 4132800 2 (-16514) 1 15035 2 72350 0 91285 0,
  r 3542400 2 (-16384) 1 12804 2 65358 0 84954 0,
  r 2999855 2 (-16193) 1 10740 2 58293 0 78634 0,
  r 2500182 2 (-15903) 1 88216 1 51059 0 72239 0,
  r 2000065 2 (-15391) 1 68735 1 42837 0 65044 0,
  r 1749951 2 (-14975) 1 58838 1 38218 0 61012 0,
  r 1499927 2 (-14369) 1 48804 1 33147 0 56556 0,
  r 1350000 2 (-13866) 1 42709 1 29836 0 53605 0,
  r 1239840 2 (-13400) 1 38190 1 27251 0 51260 0,
  r 1180800 2 (-13108) 1 35754 1 25805 0 49928 0,
  r 1127127 2 (-12812) 1 33532 1 24452 0 48664 0,
  r 1033200 2 (-12213) 1 29629 1 21990 0 46310 0,
  r 9998710 1 (-11972) 1 28241 1 21085 0 45425 0,
  r 9537231 1 (-11609) 1 26319 1 19805 0 44151 0,
  r 9184000 1 (-11307) 1 24847 1 18804 0 43132 0,
  r 8856000 1 (-11006) 1 23482 1 17856 0 42149 0,
  r 8550621 1 (-10706) 1 22214 1 16959 0 41200 0,
  r 8265601 1 (-10409) 1 21033 1 16108 0 40280 0,
  r 7998968 1 (-10113) 1 19932 1 15301 0 39389 0,
  r 7749000 1 (-98211) 0 18903 1 14535 0 38524 0,
  r 7514182 1 (-95322) 0 17942 1 13807 0 37683 0,
  r 7293176 1 (-92469) 0 17042 1 13115 0 36864 0,
  r 7084800 1 (-89657) 0 16198 1 12456 0 36067 0,
  r 7000790 1 (-88488) 0 15860 1 12189 0 35738 0,
  r 6888000 1 (-86886) 0 15407 1 11829 0 35290 0,
  r 6701838 1 (-84160) 0 14664 1 11232 0 34531 0,
  r 6525474 1 (-81481) 0 13965 1 10664 0 33791 0,
  r 6358154 1 (-78850) 0 13307 1 10122 0 33067 0,
  r 6199200 1 (-76269) 0 12688 1 96059 (-1) 32359 0,
  r 5904000 1 (-71258) 0 11555 1 86447 (-1) 30987 0,
  r 5635637 1 (-66455) 0 10545 1 77708 (-1) 29671 0,
  r 5390609 1 (-61861) 0 96440 0 69762 (-1) 28404 0,
  r 5166000 1 (-57476) 0 88370 0 62541 (-1) 27184 0,
  r 4999355 1 (-54116) 0 82515 0 57245 (-1) 26238 0,
  r 4508509 1 (-43716) 0 66032 0 42172 (-1) 23223 0,
  r 4132800 1 (-35294) 0 54310 0 31563 (-1) 20640 0,
  r 3757091 1 (-26550) 0 43507 0 22473 (-1) 17762 0,
  r 3350919 1 (-16857) 0 33012 0 15886 (-1) 14243 0,
  r 2999855 1 (-84188) (-1) 25047 0 15494 (-1) 10843 0,
  r 2755200 1 (-25893) (-1) 20152 0 20170 (-1) 83846 (-1),
  r 2499677 1 33787 (-1) 15641 0 30309 (-1) 60015 (-1),
  r 2431059 1 49507 (-1) 14537 0 33797 (-1) 54324 (-1),
  r 2384308 1 60126 (-1) 13811 0 36305 (-1) 50660 (-1),
  r 2339321 1 70271 (-1) 13132 0 38798 (-1) 47305 (-1),
  r 2296000 1 79965 (-1) 12497 0 41256 (-1) 44234 (-1),
  r 2254255 1 89234 (-1) 11902 0 43664 (-1) 41423 (-1),
  r 2214000 1 98102 (-1) 11345 0 46012 (-1) 38849 (-1),
  r 2175158 1 10659 0 10822 0 48291 (-1) 36489 (-1),
  r 2137655 1 11471 0 10331 0 50498 (-1) 34323 (-1),
  r 2101424 1 12250 0 98697 (-1) 52628 (-1) 32333 (-1),
  r 2066400 1 12996 0 94359 (-1) 54682 (-1) 30501 (-1),
  r 2032525 1 13712 0 90276 (-1) 56658 (-1) 28813 (-1),
  r 2000065 1 14391 0 86468 (-1) 58540 (-1) 27270 (-1),
  r 1937250 1 15689 0 79384 (-1) 62138 (-1) 24480 (-1),
  r 1878546 1 16881 0 73105 (-1) 65437 (-1) 22095 (-1),
  r 1823294 1 17983 0 67495 (-1) 68476 (-1) 20031 (-1),
  r 1771200 1 19047 0 62469 (-1) 71402 (-1) 18223 (-1),
  r 1722000 1 19993 0 57952 (-1) 73983 (-1) 16654 (-1),
  r 1675459 1 20872 0 53885 (-1) 76366 (-1) 15277 (-1),
  r 1631368 1 21689 0 50216 (-1) 78570 (-1) 14061 (-1),
  r 1589538 1 22451 0 46897 (-1) 80610 (-1) 12983 (-1),
  r 1549800 1 23162 0 43889 (-1) 82502 (-1) 12024 (-1),
  r 1512000 1 23827 0 41157 (-1) 84259 (-1) 11168 (-1),
  r 1499928 1 24036 0 40311 (-1) 84811 (-1) 10906 (-1),
  r 1476000 1 24448 0 38672 (-1) 85893 (-1) 10402 (-1),
  r 1441674 1 25030 0 36408 (-1) 87416 (-1) 97130 (-2),
  r 1408909 1 25577 0 34340 (-1) 88837 (-1) 90925 (-2),
  r 1377600 1 26134 0 32451 (-1) 90279 (-1) 85272 (-2),
  r 1347652 1 26616 0 30720 (-1) 91521 (-1) 80200 (-2),
  r 1318979 1 27114 0 29134 (-1) 92797 (-1) 75556 (-2),
  r 1291500 1 27542 0 27677 (-1) 93888 (-1) 71374 (-2),
  r 1265143 1 27989 0 26340 (-1) 95025 (-1) 67531 (-2),
  r 1239840 1 28414 0 25112 (-1) 96100 (-1) 64029 (-2),
  r 1227564 1 28641 0 24539 (-1) 96672 (-1) 62384 (-2),
  r 1215529 1 28906 0 23992 (-1) 97341 (-1) 60789 (-2),
  r 1192154 1 29467 0 22996 (-1) 98748 (-1) 57852 (-2),
  r 1169660 1 30542 0 22391 (-1) 10143 0 55582 (-2),
  r 1165263 1 31004 0 22561 (-1) 10257 0 55687 (-2),
  r 1163077 1 31437 0 22830 (-1) 10364 0 56056 (-2),
  r 1161987 1 31676 0 23061 (-1) 10423 0 56460 (-2),
  r 1160899 1 32006 0 23402 (-1) 10503 0 57069 (-2),
  r 1159813 1 32381 0 23915 (-1) 10595 0 58060 (-2),
  r 1158729 1 32894 0 24740 (-1) 10719 0 59702 (-2),
  r 1157647 1 33637 0 26134 (-1) 10899 0 62526 (-2),
  r 1156567 1 34705 0 28732 (-1) 11155 0 67910 (-2),
  r 1155489 1 36481 0 34364 (-1) 11574 0 79641 (-2),
  r 1154413 1 39699 0 50048 (-1) 12322 0 11211 (-1),
  r 1153340 1 46713 0 12106 0 13948 0 25275 (-1),
  r 1152482 1 38741 0 39817 0 13630 0 84250 (-1),
  r 1152375 1 31855 0 41971 0 12487 0 93325 (-1),
  r 1152268 1 24520 0 41514 0 11037 0 98670 (-1),
  r 1151733 1 94442 (-1) 21071 0 55106 (-1) 67924 (-1),
  r 1151198 1 13343 0 10224 0 56248 (-1) 32716 (-1),
  r 1150130 1 19689 0 46502 (-1) 72830 (-1) 13453 (-1),
  r 1149064 1 22667 0 33025 (-1) 80969 (-1) 91245 (-2),
  r 1148000 1 24286 0 27917 (-1) 85318 (-1) 75322 (-2),
  r 1146938 1 25301 0 25457 (-1) 88008 (-1) 67703 (-2),
  r 1145878 1 25989 0 24072 (-1) 89813 (-1) 63409 (-2),
  r 1144820 1 26469 0 23215 (-1) 91064 (-1) 60751 (-2),
  r 1143764 1 26866 0 22638 (-1) 92094 (-1) 58923 (-2),
  r 1142710 1 27179 0 22226 (-1) 92904 (-1) 57609 (-2),
  r 1141658 1 27407 0 21919 (-1) 93492 (-1) 56640 (-2),
  r 1139559 1 27822 0 21492 (-1) 94558 (-1) 55234 (-2),
  r 1135385 1 28311 0 20981 (-1) 95805 (-1) 53577 (-2),
  r 1127127 1 28858 0 20408 (-1) 97192 (-1) 51747 (-2),
  r 1107000 1 29568 0 19500 (-1) 98977 (-1) 49001 (-2),
  r 1087579 1 29961 0 18755 (-1) 99957 (-1) 46897 (-2),
  r 1068828 1 30297 0 18081 (-1) 10079 0 45025 (-2),
  r 1050712 1 30578 0 17462 (-1) 10149 0 43334 (-2),
  r 1033200 1 30848 0 16889 (-1) 10215 0 41774 (-2),
  r 1016262 1 31064 0 16356 (-1) 10268 0 40348 (-2),
  r 9998710 0 31313 0 15862 (-1) 10329 0 39013 (-2),
  r 9840000 0 31509 0 15404 (-1) 10377 0 37796 (-2),
  r 9686250 0 31697 0 14972 (-1) 10423 0 36655 (-2),
  r 9663602 0 31724 0 14913 (-1) 10430 0 36499 (-2),
  r 9537231 0 31876 0 14574 (-1) 10467 0 35605 (-2),
  r 9392728 0 32048 0 14204 (-1) 10508 0 34629 (-2),
  r 9252538 0 32256 0 13861 (-1) 10559 0 33710 (-2),
  r 9116470 0 32413 0 13539 (-1) 10597 0 32867 (-2),
  r 8984348 0 32563 0 13239 (-1) 10633 0 32082 (-2),
  r 8856000 0 32708 0 12960 (-1) 10668 0 31352 (-2),
  r 8731268 0 32846 0 12700 (-1) 10702 0 30673 (-2),
  r 8610001 0 32979 0 12457 (-1) 10734 0 30041 (-2),
  r 8492055 0 33064 0 12229 (-1) 10754 0 29462 (-2),
  r 8377297 0 33230 0 12021 (-1) 10794 0 28904 (-2),
  r 8265600 0 33348 0 11825 (-1) 10822 0 28394 (-2),
  r 7998968 0 33624 0 11388 (-1) 10888 0 27259 (-2),
  r 7749001 0 33875 0 11036 (-1) 10948 0 26343 (-2),
  r 7514182 0 34104 0 10765 (-1) 11003 0 25627 (-2),
  r 7293177 0 34314 0 10537 (-1) 11052 0 25026 (-2),
  r 7084800 0 34506 0 10347 (-1) 11098 0 24522 (-2),
  r 6911037 0 34662 0 10209 (-1) 11135 0 24152 (-2),
  r 6701838 0 34802 0 10061 (-1) 11168 0 23765 (-2),
  r 6525474 0 34952 0 99537 (-2) 11203 0 23472 (-2),
  r 6358154 0 35091 0 98732 (-2) 11236 0 23246 (-2),
  r 6199200 0 35221 0 97985 (-2) 11266 0 23038 (-2),
  r 5904000 0 35408 0 96530 (-2) 11310 0 22648 (-2),
  r 5635636 0 35609 0 95495 (-2) 11357 0 22356 (-2),
  r 5510400 0 35700 0 95135 (-2) 11379 0 22250 (-2),
  r 5166000 0 35896 0 94315 (-2) 11424 0 22011 (-2),
  r 4999355 0 36006 0 94067 (-2) 11450 0 21927 (-2),
  r 4768616 0 36153 0 93569 (-2) 11484 0 21776 (-2),
  r 4428000 0 36315 0 93086 (-2) 11522 0 21626 (-2),
  r 4132800 0 36480 0 93095 (-2) 11560 0 21589 (-2),
  r 3874500 0 36616 0 93376 (-2) 11592 0 21623 (-2),
  r 3646588 0 36728 0 93937 (-2) 11618 0 21727 (-2),
  r 3401482 0 36842 0 94996 (-2) 11644 0 21945 (-2),
  r 3262737 0 36903 0 95890 (-2) 11658 0 22137 (-2),
  r 3099600 0 36971 0 97181 (-2) 11674 0 22419 (-2),
  r 2755200 0 37191 0 10146 (-1) 11725 0 23351 (-2),
  r 2479680 0 37329 0 10678 (-1) 11757 0 24539 (-2),
  r 2423930 0 37391 0 10832 (-1) 11771 0 24878 (-2),
  r 2254255 0 37486 0 11333 (-1) 11793 0 26002 (-2),
  r 2199858 0 37546 0 11539 (-1) 11807 0 26457 (-2),
  r 2121924 0 37612 0 11846 (-1) 11822 0 27144 (-2),
  r 2066400 0 37627 0 12092 (-1) 11825 0 27701 (-2),
  r 1907446 0 37799 0 12941 (-1) 11865 0 29592 (-2),
  r 1771200 0 37962 0 13890 (-1) 11903 0 31709 (-2),
  r 1650040 0 38120 0 14965 (-1) 11939 0 34105 (-2),
  r 1549800 0 38271 0 16076 (-1) 11974 0 36581 (-2),
  r 1458635 0 38420 0 17316 (-1) 12008 0 39341 (-2),
  r 1377600 0 38609 0 18662 (-1) 12052 0 42315 (-2),
  r 1305095 0 38796 0 20138 (-1) 12094 0 45572 (-2),
  r 1249965 0 38935 0 21451 (-1) 12127 0 48474 (-2),
  r 1127127 0 39345 0 25193 (-1) 12221 0 56687 (-2),
  r 9998710 (-1) 39927 0 31039 (-1) 12355 0 69422 (-2),
  r 8997388 (-1) 40546 0 37767 (-1) 12498 0 83934 (-2),
  r 7998968 (-1) 41374 0 48175 (-1) 12691 0 10616 (-1),
  r 7000791 (-1) 42439 0 64631 (-1) 12943 0 14085 (-1),
  r 6563473 (-1) 43019 0 75508 (-1) 13084 0 16355 (-1),
  r 5500621 (-1) 44513 0 11933 0 13486 0 25405 (-1),
  r 4860212 (-1) 45032 0 16872 0 13727 0 35555 (-1),
  r 4399716 (-1) 43116 0 22500 0 13537 0 47796 (-1),
  r 4339657 (-1) 42614 0 23268 0 13467 0 49576 (-1),
  r 3999484 (-1) 38092 0 26762 0 12708 0 58926 (-1),
  r 3814892 (-1) 35633 0 27661 0 12248 0 62166 (-1),
  r 3649809 (-1) 33551 0 28261 0 11848 0 64676 (-1),
  r 3440177 (-1) 31361 0 29673 0 11478 0 69075 (-1),
  r 3262737 (-1) 27906 0 31223 0 10859 0 74845 (-1),
  r 3099600 (-1) 23624 0 31901 0 99966 (-1) 79766 (-1),
  r 2917271 (-1) 18194 0 30559 0 86777 (-1) 81806 (-1),
  r 2850207 (-1) 16253 0 29561 0 81368 (-1) 81496 (-1),
  r 2739978 (-1) 13245 0 27171 0 71758 (-1) 79096 (-1),
  r 2583000 (-1) 10965 0 22201 0 60468 (-1) 69175 (-1),
  r 2500181 (-1) 10457 0 19909 0 56529 (-1) 63595 (-1),
  r 2400000 (-1) 10397 0 17072 0 53289 (-1) 55684 (-1),
  r 2384308 (-1) 10428 0 16630 0 52919 (-1) 54374 (-1),
  r 2339321 (-1) 10615 0 15350 0 52179 (-1) 50434 (-1),
  r 2299833 (-1) 10966 0 14261 0 52189 (-1) 46853 (-1),
  r 2254255 (-1) 11576 0 13101 0 53000 (-1) 42813 (-1),
  r 2214000 (-1) 12167 0 12390 0 54210 (-1) 40173 (-1),
  r 2190143 (-1) 12468 0 12009 0 54830 (-1) 38782 (-1),
  r 2175158 (-1) 12637 0 11781 0 55170 (-1) 37962 (-1),
  r 2137655 (-1) 12978 0 11090 0 55711 (-1) 35612 (-1),
  r 2100000 (-1) 13527 0 10320 0 56871 (-1) 32892 (-1),
  r 2000065 (-1) 15527 0 88604 (-1) 62092 (-1) 27331 (-1),
  r 1899847 (-1) 17796 0 82093 (-1) 68493 (-1) 24361 (-1),
  r 1800000 (-1) 19596 0 84691 (-1) 73754 (-1) 24371 (-1),
  r 1700041 (-1) 20788 0 83280 (-1) 77035 (-1) 23521 (-1),
  r 1653120 (-1) 21558 0 80000 (-1) 79045 (-1) 22341 (-1),
  r 1600000 (-1) 22948 0 74379 (-1) 82655 (-1) 20361 (-1),
  r 1549800 (-1) 24929 0 71007 (-1) 87846 (-1) 18900 (-1),
  r 1490013 (-1) 27910 0 76593 (-1) 95686 (-1) 19570 (-1),
  r 1458635 (-1) 29568 0 83000 (-1) 99997 (-1) 20750 (-1),
  r 1441674 (-1) 30497 0 87558 (-1) 10240 0 21630 (-1),
  r 1425104 (-1) 31430 0 92652 (-1) 10480 0 22620 (-1),
  r 1408909 (-1) 32327 0 98207 (-1) 10710 0 23710 (-1),
  r 1389955 (-1) 33424 0 10558 0 10990 0 25150 (-1),
  r 1362461 (-1) 35054 0 11650 0 11400 0 27220 (-1),
  r 1333161 (-1) 37250 0 13059 0 11940 0 29760 (-1),
  r 1305095 (-1) 39712 0 14899 0 12540 0 33050 (-1),
  r 1278186 (-1) 42717 0 17310 0 13260 0 37210 (-1),
  r 1249965 (-1) 46241 0 21221 0 14120 0 43990 (-1),
  r 1215529 (-1) 50686 0 28932 0 15290 0 57200 (-1),
  r 1180013 (-1) 53093 0 40996 0 16300 0 77940 (-1),
  r 1148000 (-1) 52534 0 55466 0 17030 0 10260 0,
  r 1109973 (-1) 41192 0 90833 0 17880 0 16290 0,
  r 1078122 (-1) (-59428) (-1) 82287 0 10790 0 19790 0,
  r 1050000 (-1) (-16640) 0 62124 0 67089 (-1) 18590 0,
  r 1024661 (-1) (-16568) 0 50948 0 49669 (-1) 17020 0,
  r 9999516 (-2) (-17417) 0 45779 0 39569 (-1) 16400 0,
  r 9762520 (-2) (-20846) 0 39336 0 22389 (-1) 16070 0,
  r 9537231 (-2) (-20207) 0 31704 0 74710 (-2) 14750 0,
  r 9322105 (-2) (-17861) 0 27713 0 23360 (-2) 13540 0,
  r 9116471 (-2) (-16582) 0 24819 0 (-22890) (-2) 12700 0,
  r 8856000 (-2) (-14281) 0 21192 0 (-68891) (-2) 11380 0,
  r 8265600 (-2) (-93937) (-1) 18700 0 (-17242) (-2) 95141 (-1),
  r 7749000 (-2) (-93404) (-1) 19200 0 (-32323) (-3) 96311 (-1),
  r 7293177 (-2) (-12630) 0 16800 0 (-15221) (-1) 99081 (-1),
  r 6888000 (-2) (-12000) 0 10901 0 (-32611) (-1) 80881 (-1),
  r 6525474 (-2) (-92070) (-1) 83003 (-1) (-32431) (-1) 61421 (-1),
  r 6199200 (-2) (-67852) (-1) 78009 (-1) (-23671) (-1) 51101 (-1),
  r 5904000 (-2) (-57467) (-1) 84699 (-1) (-17141) (-1) 51111 (-1),
  r 5635637 (-2) (-61494) (-1) 87085 (-1) (-18231) (-1) 53251 (-1),
  r 5390609 (-2) (-65450) (-1) 77983 (-1) (-22591) (-1) 50371 (-1),
  r 5166000 (-2) (-64164) (-1) 70080 (-1) (-24321) (-1) 46301 (-1),
  r 4959360 (-2) (-62262) (-1) 63180 (-1) (-25391) (-1) 42340 (-1),
  r 4768616 (-2) (-60029) (-1) 57130 (-1) (-25941) (-1) 38570 (-1),
  r 4592000 (-2) (-57660) (-1) 51811 (-1) (-26091) (-1) 35050 (-1),
  r 4428000 (-2) (-55256) (-1) 47123 (-1) (-25931) (-1) 31810 (-1),
  r 4275310 (-2) (-52917) (-1) 42967 (-1) (-25561) (-1) 28860 (-1),
  r 4132800 (-2) (-50610) (-1) 39285 (-1) (-25001) (-1) 26190 (-1),
  r 3999484 (-2) (-48412) (-1) 35984 (-1) (-24341) (-1) 23780 (-1),
  r 3874500 (-2) (-46295) (-1) 33055 (-1) (-23591) (-1) 21630 (-1),
  r 3757091 (-2) (-44283) (-1) 30417 (-1) (-22801) (-1) 19700 (-1),
  r 3646588 (-2) (-42378) (-1) 28052 (-1) (-21991) (-1) 17980 (-1),
  r 3542400 (-2) (-40562) (-1) 25919 (-1) (-21171) (-1) 16440 (-1),
  r 3444000 (-2) (-38831) (-1) 24007 (-1) (-20350) (-1) 15070 (-1),
  r 3350919 (-2) (-37226) (-1) 22263 (-1) (-19570) (-1) 13840 (-1),
  r 3262737 (-2) (-35654) (-1) 20679 (-1) (-18780) (-1) 12730 (-1),
  r 3179077 (-2) (-34205) (-1) 19244 (-1) (-18040) (-1) 11740 (-1),
  r 3099600 (-2) (-32816) (-1) 17925 (-1) (-17320) (-1) 10840 (-1),
  r 2952000 (-2) (-30273) (-1) 15639 (-1) (-15980) (-1) 93070 (-2),
  r 2817818 (-2) (-27989) (-1) 13710 (-1) (-14760) (-1) 80420 (-2),
  r 2695304 (-2) (-25927) (-1) 12091 (-1) (-13650) (-1) 70010 (-2),
  r 2583000 (-2) (-24075) (-1) 10700 (-1) (-12650) (-1) 61250 (-2),
  r 2479680 (-2) (-22411) (-1) 95204 (-2) (-11750) (-1) 53940 (-2),
  r 2361600 (-2) (-20541) (-1) 82673 (-2) (-10740) (-1) 46310 (-2),
  r 2296000 (-2) (-19522) (-1) 76177 (-2) (-10190) (-1) 42410 (-2),
  r 2214000 (-2) (-18270) (-1) 68514 (-2) (-95162) (-2) 37860 (-2),
  r 2156243 (-2) (-17410) (-1) 63408 (-2) (-90542) (-2) 34860 (-2),
  r 2066400 (-2) (-16091) (-1) 55945 (-2) (-83472) (-2) 30520 (-2),
  r 1907446 (-2) (-13870) (-1) 44135 (-2) (-71631) (-2) 23770 (-2),
  r 1771200 (-2) (-12049) (-1) 35363 (-2) (-61991) (-2) 18850 (-2),
  r 1653120 (-2) (-10560) (-1) 28716 (-2) (-54151) (-2) 15180 (-2),
  r 1549800 (-2) (-93166) (-2) 23599 (-2) (-47641) (-2) 12390 (-2),
  r 1458635 (-2) (-82744) (-2) 19596 (-2) (-42211) (-2) 10230 (-2),
  r 1377600 (-2) (-73918) (-2) 16439 (-2) (-37631) (-2) 85410 (-3),
  r 1305095 (-2) (-66375) (-2) 13901 (-2) (-33731) (-2) 71930 (-3),
  r 1239840 (-2) (-59875) (-2) 11841 (-2) (-30381) (-2) 61060 (-3),
  r 1127127 (-2) (-49396) (-2) 87789 (-3) (-25000) (-2) 45020 (-3),
  r 1033200 (-2) (-41278) (-2) 66602 (-3) (-20850) (-2) 34010 (-3),
  r 9537231 (-3) (-34957) (-2) 51535 (-3) (-17630) (-2) 26230 (-3),
  r 8856000 (-3) (-29878) (-2) 40580 (-3) (-15050) (-2) 20600 (-3),
  r 8265601 (-3) (-25735) (-2) 32434 (-3) (-12950) (-2) 16430 (-3),
  r 7749000 (-3) (-22336) (-2) 26242 (-3) (-11230) (-2) 13270 (-3),
  r 7293177 (-3) (-19480) (-2) 21507 (-3) (-97872) (-3) 10860 (-3),
  r 7084800 (-3) (-18229) (-2) 19530 (-3) (-91562) (-3) 98550 (-4),
  r 6888000 (-3) (-17070) (-2) 17790 (-3) (-85712) (-3) 89720 (-4),
  r 6525474 (-3) (-14990) (-2) 14859 (-3) (-75231) (-3) 74860 (-4),
  r 6199200 (-3) (-13181) (-2) 12521 (-3) (-66121) (-3) 63020 (-4),
  r 5635636 (-3) (-10141) (-2) 90776 (-4) (-50831) (-3) 45620 (-4),
  r 5166000 (-3) (-75460) (-3) 67524 (-4) (-37801) (-3) 33890 (-4),
  r 4768616 (-3) (-48982) (-3) 51334 (-4) (-24521) (-3) 25730 (-4),
  r 4592000 (-3) (-31218) (-3) 45089 (-4) (-15621) (-3) 22580 (-4),
  r 4508509 (-3) (-17862) (-3) 42302 (-4) (-89347) (-4) 21170 (-4),
  r 4428000 (-3) 64894 (-4) 39753 (-4) 32443 (-4) 19870 (-4),
  r 4396596 (-3) 28338 (-3) 38795 (-4) 14159 (-3) 19370 (-4),
  r 4381060 (-3) 49960 (-3) 49343 (-4) 24949 (-3) 24610 (-4),
  r 4373333 (-3) 69458 (-3) 60128 (-4) 34669 (-3) 29960 (-4),
  r 4365634 (-3) 11299 (-2) 11480 (-3) 56339 (-3) 57080 (-4),
  r 4364097 (-3) 12361 (-2) 20264 (-3) 61619 (-3) 10070 (-3),
  r 4361027 (-3) 14230 (-2) 55994 (-3) 70939 (-3) 27800 (-3),
  r 4357961 (-3) 14739 (-2) 91589 (-3) 73529 (-3) 45460 (-3),
  r 4354900 (-3) 14041 (-2) 12789 (-2) 70159 (-3) 63500 (-3),
  r 4351843 (-3) 12281 (-2) 16239 (-2) 61539 (-3) 80700 (-3),
  r 4350316 (-3) 11029 (-2) 17911 (-2) 55389 (-3) 89060 (-3),
  r 4348790 (-3) 93799 (-3) 19301 (-2) 47249 (-3) 96050 (-3),
  r 4347265 (-3) 73406 (-3) 20576 (-2) 37159 (-3) 10250 (-2),
  r 4345742 (-3) 50753 (-3) 21716 (-2) 25929 (-3) 10830 (-2),
  r 4344219 (-3) 27285 (-3) 22252 (-2) 14249 (-3) 11110 (-2),
  r 4342697 (-3) 28199 (-4) 21704 (-2) 19984 (-4) 10850 (-2),
  r 4341177 (-3) (-23121) (-3) 20877 (-2) (-11021) (-3) 10450 (-2),
  r 4339657 (-3) (-43560) (-3) 19600 (-2) (-21321) (-3) 98210 (-3),
  r 4338139 (-3) (-54491) (-3) 17860 (-2) (-26881) (-3) 89540 (-3),
  r 4335105 (-3) (-65795) (-3) 12930 (-2) (-32741) (-3) 64860 (-3),
  r 4327539 (-3) (-50511) (-3) 96337 (-3) (-25171) (-3) 48290 (-3),
  r 4320000 (-3) (-39622) (-3) 79822 (-3) (-19751) (-3) 39990 (-3),
  r 4305000 (-3) (-29390) (-3) 71935 (-3) (-14641) (-3) 36020 (-3),
  r 4290104 (-3) (-26590) (-3) 65174 (-3) (-13251) (-3) 32630 (-3),
  r 4275310 (-3) (-18151) (-3) 55210 (-3) (-90416) (-4) 27630 (-3),
  r 4260619 (-3) 85818 (-4) 51742 (-3) 43234 (-4) 25860 (-3),
  r 4259155 (-3) 13458 (-3) 54937 (-3) 67644 (-4) 27450 (-3),
  r 4253311 (-3) 22416 (-3) 83774 (-3) 11289 (-3) 41840 (-3),
  r 4251852 (-3) 18429 (-3) 94468 (-3) 93214 (-4) 47190 (-3),
  r 4250394 (-3) 12680 (-3) 10191 (-2) 64674 (-4) 50920 (-3),
  r 4246028 (-3) (-39707) (-4) 97522 (-3) (-18666) (-4) 48770 (-3),
  r 4244574 (-3) (-67555) (-4) 93210 (-3) (-32696) (-4) 46620 (-3),
  r 4231536 (-3) (-17111) (-3) 99296 (-3) (-84356) (-4) 49690 (-3),
  r 4217143 (-3) (-29355) (-3) 96819 (-3) (-14571) (-3) 48480 (-3),
  r 4202847 (-3) (-37704) (-3) 93265 (-3) (-18761) (-3) 46720 (-3),
  r 4188649 (-3) (-46425) (-3) 88714 (-3) (-23141) (-3) 44460 (-3),
  r 4174545 (-3) (-48830) (-3) 76812 (-3) (-24371) (-3) 38500 (-3),
  r 4160537 (-3) (-46084) (-3) 73391 (-3) (-23001) (-3) 36780 (-3),
  r 4146622 (-3) (-45732) (-3) 69980 (-3) (-22831) (-3) 35070 (-3),
  r 4132800 (-3) (-42444) (-3) 65561 (-3) (-21191) (-3) 32850 (-3),
  r 4119070 (-3) (-37956) (-3) 66354 (-3) (-18941) (-3) 33240 (-3),
  r 4105431 (-3) (-34468) (-3) 68163 (-3) (-17191) (-3) 34140 (-3),
  r 4091881 (-3) (-33910) (-3) 74115 (-3) (-16901) (-3) 37120 (-3),
  r 4078421 (-3) (-36996) (-3) 76918 (-3) (-18441) (-3) 38530 (-3),
  r 4065049 (-3) (-39055) (-3) 77668 (-3) (-19471) (-3) 38910 (-3),
  r 4051765 (-3) (-39501) (-3) 79423 (-3) (-19691) (-3) 39790 (-3),
  r 4038567 (-3) (-42155) (-3) 84243 (-3) (-21011) (-3) 42210 (-3),
  r 4025455 (-3) (-49131) (-3) 86986 (-3) (-24501) (-3) 43600 (-3),
  r 4012427 (-3) (-55983) (-3) 84663 (-3) (-27941) (-3) 42450 (-3),
  r 3999484 (-3) (-60097) (-3) 81335 (-3) (-30011) (-3) 40790 (-3),
  r 3936000 (-3) (-68370) (-3) 64997 (-3) (-34191) (-3) 32610 (-3),
  r 3874500 (-3) (-63634) (-3) 54187 (-3) (-31831) (-3) 27180 (-3),
  r 3757091 (-3) (-60471) (-3) 49410 (-3) (-30250) (-3) 24780 (-3),
  r 3646588 (-3) (-59443) (-3) 44886 (-3) (-29740) (-3) 22510 (-3),
  r 3444000 (-3) (-57094) (-3) 37233 (-3) (-28570) (-3) 18670 (-3),
  r 3262737 (-3) (-54052) (-3) 31136 (-3) (-27050) (-3) 15610 (-3),
  r 3099600 (-3) (-50753) (-3) 26213 (-3) (-25400) (-3) 13140 (-3),
  r 2755200 (-3) (-42842) (-3) 17520 (-3) (-21440) (-3) 87790 (-4),
  r 2479680 (-3) (-35872) (-3) 12130 (-3) (-17950) (-3) 60760 (-4),
  r 2254255 (-3) (-30259) (-3) 86509 (-4) (-15140) (-3) 43320 (-4),
  r 2066400 (-3) (-25725) (-3) 63278 (-4) (-12870) (-3) 31680 (-4),
  r 1907446 (-3) (-22069) (-3) 47308 (-4) (-11040) (-3) 23680 (-4),
  r 1771200 (-3) (-19079) (-3) 36066 (-4) (-95441) (-4) 18050 (-4),
  r 1653120 (-3) (-16649) (-3) 27957 (-4) (-83281) (-4) 13990 (-4),
  r 1549800 (-3) (-14641) (-3) 21984 (-4) (-73231) (-4) 11000 (-4),
  r 1458635 (-3) (-12960) (-3) 17531 (-4) (-64821) (-4) 87710 (-5),
  r 1377600 (-3) (-11541) (-3) 14140 (-4) (-57721) (-4) 70740 (-5),
  r 1305095 (-3) (-10339) (-3) 11530 (-4) (-51711) (-4) 57680 (-5),
  r 1239840 (-3) (-93220) (-4) 94916 (-5) (-46621) (-4) 47480 (-5),
  r 1127127 (-3) (-76766) (-4) 65995 (-5) (-38390) (-4) 33010 (-5),
  r 1033200 (-3) (-64270) (-4) 47265 (-5) (-32140) (-4) 23640 (-5),
  r 9537231 (-4) (-54533) (-4) 34691 (-5) (-27270) (-4) 17350 (-5),
  r 8856000 (-4) (-46875) (-4) 26034 (-5) (-23440) (-4) 13020 (-5),
  r 8265600 (-4) (-40716) (-4) 19910 (-5) (-20360) (-4) 99570 (-6),
  r 7749000 (-4) (-35677) (-4) 15469 (-5) (-17840) (-4) 77360 (-6),
  r 7293177 (-4) (-31518) (-4) 12200 (-5) (-15760) (-4) 61010 (-6),
  r 6888000 (-4) (-28058) (-4) 97426 (-6) (-14030) (-4) 48720 (-6),
  r 6525474 (-4) (-25159) (-4) 78730 (-6) (-12580) (-4) 39370 (-6),
  r 6199200 (-4) (-22639) (-4) 64273 (-6) (-11320) (-4) 32140 (-6),
  r 4959360 (-4) (-14350) (-4) 26438 (-6) (-71751) (-5) 13220 (-6),
  r 4132800 (-4) (-99359) (-5) 12739 (-6) (-49681) (-5) 63700 (-7),
  r 3099600 (-4) (-55560) (-5) 39759 (-7) (-27780) (-5) 19880 (-7),
  r 2479680 (-4) (-35440) (-5) 15990 (-7) (-17720) (-5) 79950 (-8),
  r 2066400 (-4) (-24560) (-5) 75599 (-8) (-12280) (-5) 37800 (-8),
  r 1549800 (-4) (-13790) (-5) 23000 (-8) (-68951) (-6) 11500 (-8),
  r 1239840 (-4) (-88141) (-6) 90740 (-9) (-44071) (-6) 45370 (-9),
  r 1033200 (-4) (-61161) (-6) 53140 (-9) (-30580) (-6) 26570 (-9),
  r 8856000 (-5) (-44920) (-6) 26100 (-9) (-22460) (-6) 13050 (-9),
  r 7749000 (-5) (-34380) (-6) 13230 (-9) (-17190) (-6) 66150 (-10),
  r 6888000 (-5) (-27160) (-6) 80980 (-10) (-13580) (-6) 40490 (-10),
  r 6199200 (-5) 46330 (-10) 28323 (-17) 23165 (-10) 14161 (-17)]

set_option maxRecDepth 20000 in
/-- data/callindex.out_CpeD03_0.10:9-391 -/
def perpendicular : List Row := [
  r 1239840 5 (-63696) 3 22563 6 10596 3 10636 3,
  r 1239840 4 (-63628) 3 22541 5 33001 2 34049 2,
  r 2000065 3 (-61149) 3 35086 4 12045 2 14444 2,
  r 1499927 3 (-59289) 3 25594 4 99856 1 12689 2,
  r 1200232 3 (-57041) 3 19787 4 85284 1 11466 2,
  r 9998710 2 (-54492) 3 15828 4 74137 1 10533 2,
  r 7000791 2 (-47156) 3 97622 3 54347 1 88192 1,
  r 4999355 2 (-37201) 3 56947 3 38259 1 72528 1,
  r 4132800 2 (-30634) 3 40145 3 30518 1 63685 1,
  r 3542400 2 (-25158) 3 29478 3 25077 1 56523 1,
  r 2999855 2 (-19395) 3 20604 3 20100 1 48823 1,
  r 2500182 2 (-13550) 3 13551 3 15757 1 40433 1,
  r 2000065 2 (-73545) 2 79120 2 12136 1 30116 1,
  r 1749951 2 (-41676) 2 57409 2 11105 1 23713 1,
  r 1499927 2 (-90530) 1 41413 2 11926 1 16019 1,
  r 1350000 2 11533 2 35810 2 14698 1 11406 1,
  r 1239840 2 27085 2 35102 2 17919 1 92770 0,
  r 1180800 2 35223 2 36525 2 19753 1 88001 0,
  r 1127127 2 42281 2 39042 2 21361 1 87298 0,
  r 1033200 2 52061 2 47507 2 23770 1 95896 0,
  r 9998710 1 54098 2 51199 2 24373 1 10089 1,
  r 9537231 1 55505 2 56091 2 24941 1 10811 1,
  r 9184000 1 56203 2 59783 2 25308 1 11362 1,
  r 8856000 1 56434 2 63362 2 25594 1 11913 1,
  r 8550621 1 56161 2 67301 2 25831 1 12542 1,
  r 8265601 1 54938 2 71062 2 25919 1 13200 1,
  r 7998968 1 52965 2 74530 2 25885 1 13861 1,
  r 7749000 1 50366 2 77464 2 25732 1 14489 1,
  r 7514182 1 47514 2 79755 2 25505 1 15045 1,
  r 7293176 1 44481 2 81689 2 25234 1 15569 1,
  r 7084800 1 41300 2 83262 2 24922 1 16060 1,
  r 7000790 1 39892 2 83745 2 24768 1 16250 1,
  r 6888000 1 38032 2 84418 2 24570 1 16507 1,
  r 6701838 1 34650 2 85272 2 24182 1 16931 1,
  r 6525474 1 31318 2 85831 2 23781 1 17318 1,
  r 6358154 1 27865 2 86064 2 23337 1 17682 1,
  r 6199200 1 24419 2 86034 2 22872 1 18020 1,
  r 5904000 1 17781 2 84961 2 21881 1 18566 1,
  r 5635637 1 11432 2 83056 2 20839 1 19016 1,
  r 5390609 1 56298 1 80156 2 19747 1 19317 1,
  r 5166000 1 52187 0 76713 2 18664 1 19506 1,
  r 4999355 1 (-32183) 1 73523 2 17771 1 19584 1,
  r 4508509 1 (-11081) 2 60497 2 14891 1 19035 1,
  r 4132800 1 (-12834) 2 50471 2 13021 1 17998 1,
  r 3757091 1 (-12998) 2 41696 2 11399 1 16814 1,
  r 3350919 1 (-11994) 2 33117 2 97922 0 15343 1,
  r 2999855 1 (-10116) 2 26545 2 85802 0 13854 1,
  r 2755200 1 (-84655) 1 22585 2 78654 0 12738 1,
  r 2499677 1 (-65249) 1 18923 2 72337 0 11491 1,
  r 2431059 1 (-58521) 1 18162 2 71544 0 11136 1,
  r 2384308 1 (-54793) 1 17681 2 70937 0 10922 1,
  r 2339321 1 (-51692) 1 17235 2 70300 0 10732 1,
  r 2296000 1 (-48809) 1 16806 2 69661 0 10548 1,
  r 2254255 1 (-46130) 1 16388 2 69010 0 10371 1,
  r 2214000 1 (-43601) 1 15991 2 68387 0 10200 1,
  r 2175158 1 (-41206) 1 15604 2 67760 0 10034 1,
  r 2137655 1 (-38877) 1 15238 2 67181 0 98715 0,
  r 2101424 1 (-36623) 1 14882 2 66617 0 97121 0,
  r 2066400 1 (-34404) 1 14538 2 66080 0 95543 0,
  r 2032525 1 (-32246) 1 14222 2 65621 0 94038 0,
  r 2000065 1 (-30090) 1 13917 2 65196 0 92539 0,
  r 1937250 1 (-25571) 1 13398 2 64713 0 89661 0,
  r 1878546 1 (-22130) 1 12971 2 64259 0 87335 0,
  r 1823294 1 (-19253) 1 12573 2 63755 0 85235 0,
  r 1771200 1 (-16716) 1 12198 2 63236 0 83277 0,
  r 1722000 1 (-14470) 1 11851 2 62732 0 81468 0,
  r 1675459 1 (-12418) 1 11517 2 62222 0 79736 0,
  r 1631368 1 (-10518) 1 11212 2 61767 0 78117 0,
  r 1589538 1 (-89058) 0 10929 2 61299 0 76643 0,
  r 1549800 1 (-74794) 0 10664 2 60838 0 75272 0,
  r 1512000 1 (-62297) 0 10411 2 60361 0 73984 0,
  r 1499928 1 (-58363) 0 10331 2 60208 0 73571 0,
  r 1476000 1 (-50768) 0 10169 2 59889 0 72748 0,
  r 1441674 1 (-40180) 0 99273 1 59391 0 71532 0,
  r 1408909 1 (-30300) 0 97002 1 58918 0 70375 0,
  r 1377600 1 (-20961) 0 94825 1 58460 0 69256 0,
  r 1347652 1 (-12127) 0 92740 1 58017 0 68174 0,
  r 1318979 1 (-34949) (-1) 90744 1 57601 0 67118 0,
  r 1291500 1 48311 (-1) 88848 1 57210 0 66097 0,
  r 1265143 1 12877 0 87050 1 56846 0 65112 0,
  r 1239840 1 21311 0 85330 1 56528 0 64131 0,
  r 1227564 1 25429 0 84600 1 56414 0 63691 0,
  r 1215529 1 28718 0 83903 1 56281 0 63293 0,
  r 1192154 1 34984 0 82505 1 56002 0 62502 0,
  r 1169660 1 40281 0 81149 1 55701 0 61756 0,
  r 1148000 1 45147 0 79830 1 55397 0 61035 0,
  r 1127127 1 49464 0 78538 1 55080 0 60339 0,
  r 1107000 1 53405 0 77307 1 54771 0 59676 0,
  r 1087579 1 57213 0 76110 1 54470 0 59027 0,
  r 1068828 1 60653 0 74948 1 54166 0 58402 0,
  r 1050712 1 63980 0 73820 1 53870 0 57789 0,
  r 1033200 1 66962 0 72726 1 53572 0 57200 0,
  r 1016262 1 69871 0 71688 1 53292 0 56632 0,
  r 9998710 0 72454 0 70683 1 53011 0 56088 0,
  r 9840000 0 74724 0 69711 1 52728 0 55566 0,
  r 9686250 0 76689 0 68771 1 52444 0 55067 0,
  r 9663602 0 76997 0 68627 1 52400 0 54989 0,
  r 9537231 0 78571 0 67838 1 52157 0 54569 0,
  r 9392728 0 80268 0 66923 1 51869 0 54084 0,
  r 9252538 0 81915 0 66038 1 51590 0 53611 0,
  r 9116470 0 83388 0 65171 1 51309 0 53150 0,
  r 8984348 0 84922 0 64320 1 51036 0 52690 0,
  r 8856000 0 86290 0 63487 1 50763 0 52242 0,
  r 8731268 0 87723 0 62669 1 50497 0 51795 0,
  r 8610001 0 89122 0 61878 1 50241 0 51359 0,
  r 8492055 0 90366 0 61105 1 49984 0 50935 0,
  r 8377297 0 91681 0 60347 1 49735 0 50512 0,
  r 8265600 0 92970 0 59614 1 49495 0 50100 0,
  r 7998968 0 96215 0 57860 1 48927 0 49094 0,
  r 7749001 0 99909 0 56284 1 48454 0 48144 0,
  r 7514182 0 10226 1 54891 1 47988 0 47329 0,
  r 7293177 0 10393 1 53552 1 47508 0 46561 0,
  r 7084800 0 10515 1 52265 1 47023 0 45827 0,
  r 6911037 0 10615 1 51199 1 46619 0 45214 0,
  r 6701838 0 10716 1 49878 1 46103 0 44452 0,
  r 6525474 0 10817 1 48774 1 45678 0 43800 0,
  r 6358154 0 11008 1 47757 1 45340 0 43148 0,
  r 6332176 0 11139 1 47649 1 45367 0 43030 0,
  r 6328944 0 11161 1 47646 1 45378 0 43019 0,
  r 6325715 0 11194 1 47652 1 45399 0 43008 0,
  r 6322489 0 11238 1 47666 1 45430 0 42997 0,
  r 6319266 0 11285 1 47700 1 45471 0 42995 0,
  r 6316047 0 11326 1 47764 1 45523 0 43013 0,
  r 6312831 0 11363 1 47860 1 45585 0 43051 0,
  r 6309618 0 11373 1 47990 1 45648 0 43120 0,
  r 6306409 0 11293 1 48194 1 45691 0 43269 0,
  r 6303203 0 11077 1 48367 1 45646 0 43460 0,
  r 6300000 0 10727 1 48386 1 45459 0 43623 0,
  r 6296801 0 10470 1 48189 1 45229 0 43626 0,
  r 6293604 0 10358 1 47942 1 45058 0 43538 0,
  r 6290411 0 10352 1 47742 1 44966 0 43429 0,
  r 6287221 0 10386 1 47607 1 44925 0 43338 0,
  r 6284035 0 10434 1 47501 1 44905 0 43257 0,
  r 6280851 0 10475 1 47425 1 44895 0 43196 0,
  r 6277671 0 10508 1 47361 1 44885 0 43146 0,
  r 6274494 0 10544 1 47316 1 44885 0 43104 0,
  r 6271320 0 10580 1 47271 1 44885 0 43063 0,
  r 6268150 0 10607 1 47238 1 44886 0 43032 0,
  r 6261818 0 10641 1 47173 1 44877 0 42981 0,
  r 6230352 0 10747 1 46941 1 44834 0 42802 0,
  r 6199200 0 10796 1 46736 1 44771 0 42665 0,
  r 6048000 0 10888 1 45801 1 44409 0 42090 0,
  r 5904000 0 10924 1 44892 1 44024 0 41548 0,
  r 5635636 0 10938 1 43171 1 43259 0 40530 0,
  r 5510400 0 10947 1 42365 1 42898 0 40043 0,
  r 5166000 0 10944 1 40100 1 41858 0 38663 0,
  r 4999355 0 10967 1 39007 1 41365 0 37970 0,
  r 4768616 0 11009 1 37584 1 40727 0 37045 0,
  r 4428000 0 10896 1 35447 1 39642 0 35703 0,
  r 4132800 0 10765 1 33556 1 38644 0 34492 0,
  r 3874500 0 10661 1 31907 1 37766 0 33399 0,
  r 3646588 0 10474 1 30490 1 36932 0 32483 0,
  r 3401482 0 10239 1 28896 1 35959 0 31437 0,
  r 3262737 0 10094 1 27982 1 35384 0 30828 0,
  r 3099600 0 99421 0 26904 1 34714 0 30085 0,
  r 2755200 0 94819 0 24624 1 33153 0 28531 0,
  r 2479680 0 91366 0 22730 1 31848 0 27158 0,
  r 2423930 0 90656 0 22381 1 31597 0 26902 0,
  r 2254255 0 87857 0 21271 1 30743 0 26104 0,
  r 2199858 0 86867 0 20904 1 30451 0 25838 0,
  r 2121924 0 85407 0 20372 1 30022 0 25450 0,
  r 2066400 0 84443 0 19991 1 29720 0 25165 0,
  r 1907446 0 81330 0 18922 1 28822 0 24370 0,
  r 1771200 0 78142 0 17993 1 27981 0 23688 0,
  r 1650040 0 75207 0 17133 1 27186 0 23037 0,
  r 1549800 0 72972 0 16427 1 26538 0 22479 0,
  r 1458635 0 70404 0 15823 1 25909 0 22032 0,
  r 1377600 0 67728 0 15252 1 25278 0 21617 0,
  r 1305095 0 65320 0 14715 1 24686 0 21212 0,
  r 1249965 0 63567 0 14283 1 24222 0 20868 0,
  r 1127127 0 59304 0 13379 1 23164 0 20170 0,
  r 9998710 (-1) 54015 0 12347 1 21866 0 19373 0,
  r 8997388 (-1) 49973 0 11471 1 20775 0 18637 0,
  r 7998968 (-1) 46485 0 10557 1 19683 0 17782 0,
  r 7000791 (-1) 43551 0 96527 0 18630 0 16858 0,
  r 6563473 (-1) 42553 0 92797 0 18213 0 16446 0,
  r 5500621 (-1) 40394 0 85590 0 17360 0 15641 0,
  r 4860212 (-1) 38456 0 83237 0 16904 0 15469 0,
  r 4399716 (-1) 36126 0 82730 0 16537 0 15587 0,
  r 4339657 (-1) 35738 0 82786 0 16488 0 15627 0,
  r 3999484 (-1) 32940 0 83535 0 16160 0 15966 0,
  r 3814892 (-1) 30969 0 84403 0 15961 0 16256 0,
  r 3649809 (-1) 28842 0 85590 0 15771 0 16606 0,
  r 3440177 (-1) 25535 0 88490 0 15583 0 17295 0,
  r 3262737 (-1) 20498 0 92773 0 15314 0 18325 0,
  r 3099600 (-1) 11681 0 97506 0 14654 0 19774 0,
  r 2917271 (-1) (-43133) (-1) 10000 1 13005 0 21734 0,
  r 2850207 (-1) (-12362) 0 99802 0 12076 0 22604 0,
  r 2739978 (-1) (-29058) 0 94277 0 96374 (-1) 24004 0,
  r 2583000 (-1) (-44706) 0 70553 0 48190 (-1) 23805 0,
  r 2500181 (-1) (-46506) 0 56893 0 24683 (-1) 22815 0,
  r 2400000 (-1) (-43529) 0 41531 0 (-38205) (-3) 20845 0,
  r 2384308 (-1) (-42657) 0 39420 0 (-37371) (-2) 20475 0,
  r 2339321 (-1) (-39435) 0 34176 0 (-11485) (-1) 19306 0,
  r 2299833 (-1) (-36657) 0 30503 0 (-16776) (-1) 18326 0,
  r 2254255 (-1) (-33533) 0 26994 0 (-21646) (-1) 17226 0,
  r 2214000 (-1) (-30918) 0 24042 0 (-26007) (-1) 16246 0,
  r 2190143 (-1) (-29249) 0 22468 0 (-28107) (-1) 15626 0,
  r 2175158 (-1) (-28173) 0 21555 0 (-29218) (-1) 15226 0,
  r 2137655 (-1) (-25437) 0 19715 0 (-30710) (-1) 14226 0,
  r 2100000 (-1) (-23054) 0 18216 0 (-31602) (-1) 13316 0,
  r 2000065 (-1) (-17437) 0 14955 0 (-31938) (-1) 10986 0,
  r 1899847 (-1) (-12377) 0 12329 0 (-28658) (-1) 86408 (-1),
  r 1800000 (-1) (-77314) (-1) 10430 0 (-19557) (-1) 64826 (-1),
  r 1700041 (-1) (-34568) (-1) 89656 (-1) (-60785) (-2) 47729 (-1),
  r 1653120 (-1) (-14681) (-1) 84006 (-1) 12557 (-2) 41482 (-1),
  r 1600000 (-1) 73593 (-2) 79016 (-1) 96955 (-2) 36016 (-1),
  r 1549800 (-1) 27737 (-1) 75006 (-1) 17445 (-1) 31932 (-1),
  r 1490013 (-1) 53662 (-1) 69300 (-1) 26931 (-1) 27298 (-1),
  r 1458635 (-1) 69040 (-1) 67013 (-1) 32454 (-1) 25297 (-1),
  r 1441674 (-1) 77936 (-1) 66473 (-1) 35625 (-1) 24506 (-1),
  r 1425104 (-1) 86764 (-1) 66332 (-1) 38737 (-1) 23906 (-1),
  r 1408909 (-1) 95594 (-1) 66523 (-1) 41808 (-1) 23455 (-1),
  r 1389955 (-1) 10621 0 67241 (-1) 45450 (-1) 23115 (-1),
  r 1362461 (-1) 12220 0 69024 (-1) 50812 (-1) 22884 (-1),
  r 1333161 (-1) 14062 0 72563 (-1) 56834 (-1) 23134 (-1),
  r 1305095 (-1) 15942 0 78010 (-1) 62836 (-1) 23954 (-1),
  r 1278186 (-1) 17832 0 86324 (-1) 68778 (-1) 25573 (-1),
  r 1249965 (-1) 19834 0 98000 (-1) 74980 (-1) 28003 (-1),
  r 1215529 (-1) 22282 0 11640 0 82482 (-1) 31893 (-1),
  r 1180013 (-1) 24843 0 14158 0 90333 (-1) 37193 (-1),
  r 1148000 (-1) 27414 0 17051 0 98155 (-1) 43023 (-1),
  r 1109973 (-1) 30715 0 22222 0 10869 0 53243 (-1),
  r 1078122 (-1) 33178 0 29195 0 11829 0 66874 (-1),
  r 1050000 (-1) 32710 0 39095 0 12429 0 87154 (-1),
  r 1024661 (-1) 25484 0 48048 0 11819 0 11010 0,
  r 9999516 (-2) 17112 0 51460 0 10649 0 12461 0,
  r 9762520 (-2) 90273 (-1) 52288 0 93222 (-1) 13531 0,
  r 9537231 (-2) 20352 (-1) 51198 0 79763 (-1) 14241 0,
  r 9322105 (-2) (-38112) (-1) 48372 0 65763 (-1) 14591 0,
  r 9116471 (-2) (-73405) (-1) 45042 0 54563 (-1) 14571 0,
  r 8856000 (-2) (-10897) 0 41496 0 42494 (-1) 14561 0,
  r 8265600 (-2) (-17792) 0 33007 0 14285 (-1) 14441 0,
  r 7749000 (-2) (-19800) 0 22998 0 (-12825) (-1) 13191 0,
  r 7293177 (-2) (-17797) 0 17304 0 (-25225) (-1) 11571 0,
  r 6888000 (-2) (-16302) 0 13205 0 (-35465) (-1) 10231 0,
  r 6525474 (-2) (-14162) 0 10299 0 (-41065) (-1) 87378 (-1),
  r 6199200 (-2) (-12741) 0 87006 (-1) (-43516) (-1) 77018 (-1),
  r 5904000 (-2) (-11621) 0 72997 (-1) (-45886) (-1) 67447 (-1),
  r 5635637 (-2) (-10562) 0 61000 (-1) (-47256) (-1) 57827 (-1),
  r 5390609 (-2) (-95768) (-1) 51995 (-1) (-46897) (-1) 48956 (-1),
  r 5166000 (-2) (-87389) (-1) 45000 (-1) (-45527) (-1) 41306 (-1),
  r 4959360 (-2) (-80076) (-1) 38996 (-1) (-43557) (-1) 34545 (-1),
  r 4768616 (-2) (-73706) (-1) 33998 (-1) (-41147) (-1) 28884 (-1),
  r 4592000 (-2) (-67296) (-1) 29006 (-1) (-38187) (-1) 23463 (-1),
  r 4428000 (-2) (-61574) (-1) 26000 (-1) (-34876) (-1) 19962 (-1),
  r 4275310 (-2) (-55710) (-1) 22006 (-1) (-31536) (-1) 16071 (-1),
  r 4132800 (-2) (-49815) (-1) 21002 (-1) (-27685) (-1) 14521 (-1),
  r 3999484 (-2) (-45690) (-1) 19998 (-1) (-25105) (-1) 13351 (-1),
  r 3874500 (-2) (-41844) (-1) 19004 (-1) (-22754) (-1) 12301 (-1),
  r 3757091 (-2) (-38336) (-1) 18498 (-1) (-20614) (-1) 11651 (-1),
  r 3646588 (-2) (-35135) (-1) 18000 (-1) (-18704) (-1) 11071 (-1),
  r 3542400 (-2) (-30149) (-1) 17998 (-1) (-15743) (-1) 10680 (-1),
  r 3444000 (-2) (-29678) (-1) 23998 (-1) (-14963) (-1) 14111 (-1),
  r 3350919 (-2) (-32487) (-1) 22261 (-1) (-16753) (-1) 13370 (-1),
  r 3262737 (-2) (-32190) (-1) 20670 (-1) (-16723) (-1) 12410 (-1),
  r 3179077 (-2) (-31593) (-1) 19241 (-1) (-16493) (-1) 11520 (-1),
  r 3099600 (-2) (-30822) (-1) 17929 (-1) (-16143) (-1) 10690 (-1),
  r 2952000 (-2) (-29047) (-1) 15641 (-1) (-15262) (-1) 92293 (-2),
  r 2817818 (-2) (-27216) (-1) 13710 (-1) (-14312) (-1) 80002 (-2),
  r 2695304 (-2) (-25478) (-1) 12089 (-1) (-13392) (-1) 69792 (-2),
  r 2583000 (-2) (-23814) (-1) 10700 (-1) (-12502) (-1) 61141 (-2),
  r 2479680 (-2) (-22289) (-1) 95191 (-2) (-11682) (-1) 53891 (-2),
  r 2361600 (-2) (-20526) (-1) 82682 (-2) (-10731) (-1) 46311 (-2),
  r 2296000 (-2) (-19560) (-1) 76178 (-2) (-10211) (-1) 42421 (-2),
  r 2214000 (-2) (-18363) (-1) 68513 (-2) (-95673) (-2) 37881 (-2),
  r 2156243 (-2) (-17523) (-1) 63401 (-2) (-91162) (-2) 34880 (-2),
  r 2066400 (-2) (-16232) (-1) 55954 (-2) (-84241) (-2) 30550 (-2),
  r 1907446 (-2) (-14042) (-1) 44128 (-2) (-72559) (-2) 23790 (-2),
  r 1771200 (-2) (-12231) (-1) 35364 (-2) (-62958) (-2) 18870 (-2),
  r 1653120 (-2) (-10741) (-1) 28725 (-2) (-55107) (-2) 15200 (-2),
  r 1549800 (-2) (-94889) (-2) 23596 (-2) (-48546) (-2) 12400 (-2),
  r 1458635 (-2) (-84381) (-2) 19598 (-2) (-43065) (-2) 10240 (-2),
  r 1377600 (-2) (-75465) (-2) 16439 (-2) (-38435) (-2) 85480 (-3),
  r 1305095 (-2) (-67812) (-2) 13900 (-2) (-34474) (-2) 71980 (-3),
  r 1239840 (-2) (-61219) (-2) 11840 (-2) (-31074) (-2) 61100 (-3),
  r 1127127 (-2) (-50551) (-2) 87775 (-3) (-25593) (-2) 45040 (-3),
  r 1033200 (-2) (-42300) (-2) 66606 (-3) (-21373) (-2) 34030 (-3),
  r 9537231 (-3) (-35825) (-2) 51532 (-3) (-18072) (-2) 26240 (-3),
  r 8856000 (-3) (-30650) (-2) 40584 (-3) (-15442) (-2) 20610 (-3),
  r 8265601 (-3) (-26429) (-2) 32423 (-3) (-13302) (-2) 16430 (-3),
  r 7749000 (-3) (-22951) (-2) 26253 (-3) (-11541) (-2) 13280 (-3),
  r 7293177 (-3) (-20042) (-2) 21501 (-3) (-10071) (-2) 10860 (-3),
  r 7084800 (-3) (-18743) (-2) 19530 (-3) (-94152) (-3) 98580 (-4),
  r 6888000 (-3) (-17551) (-2) 17790 (-3) (-88141) (-3) 89740 (-4),
  r 6525474 (-3) (-15433) (-2) 14860 (-3) (-77460) (-3) 74880 (-4),
  r 6199200 (-3) (-13582) (-2) 12520 (-3) (-68139) (-3) 63030 (-4),
  r 5635636 (-3) (-10482) (-2) 90781 (-4) (-52548) (-3) 45630 (-4),
  r 5166000 (-3) (-78300) (-3) 67534 (-4) (-39226) (-3) 33900 (-4),
  r 4768616 (-3) (-51425) (-3) 51347 (-4) (-25745) (-3) 25740 (-4),
  r 4592000 (-3) (-33462) (-3) 45084 (-4) (-16745) (-3) 22580 (-4),
  r 4508509 (-3) (-20040) (-3) 42318 (-4) (-10025) (-3) 21180 (-4),
  r 4428000 (-3) 43709 (-4) 39769 (-4) 21854 (-4) 19880 (-4),
  r 4396596 (-3) 26248 (-3) 38791 (-4) 13115 (-3) 19370 (-4),
  r 4381060 (-3) 47888 (-3) 49358 (-4) 23915 (-3) 24620 (-4),
  r 4373333 (-3) 67383 (-3) 60122 (-4) 33636 (-3) 29960 (-4),
  r 4365634 (-3) 11089 (-2) 11479 (-3) 55296 (-3) 57080 (-4),
  r 4364097 (-3) 12159 (-2) 20262 (-3) 60616 (-3) 10070 (-3),
  r 4361027 (-3) 14018 (-2) 55989 (-3) 69886 (-3) 27800 (-3),
  r 4357961 (-3) 14529 (-2) 91599 (-3) 72486 (-3) 45470 (-3),
  r 4354900 (-3) 13839 (-2) 12790 (-2) 69156 (-3) 63510 (-3),
  r 4351843 (-3) 12079 (-2) 16240 (-2) 60536 (-3) 80710 (-3),
  r 4350316 (-3) 10829 (-2) 17911 (-2) 54396 (-3) 89070 (-3),
  r 4348790 (-3) 92184 (-3) 19299 (-2) 46446 (-3) 96050 (-3),
  r 4347265 (-3) 71351 (-3) 20574 (-2) 36136 (-3) 10250 (-2),
  r 4345742 (-3) 48720 (-3) 21714 (-2) 24916 (-3) 10830 (-2),
  r 4344219 (-3) 25252 (-3) 22269 (-2) 13236 (-3) 11120 (-2),
  r 4342697 (-3) 78220 (-5) 21702 (-2) 97967 (-5) 10850 (-2),
  r 4341177 (-3) (-25166) (-3) 20875 (-2) (-12044) (-3) 10450 (-2),
  r 4339657 (-3) (-45604) (-3) 19600 (-2) (-22344) (-3) 98220 (-3),
  r 4338139 (-3) (-56513) (-3) 17860 (-2) (-27894) (-3) 89550 (-3),
  r 4335105 (-3) (-67836) (-3) 12930 (-2) (-33764) (-3) 64870 (-3),
  r 4327539 (-3) (-52534) (-3) 96347 (-3) (-26184) (-3) 48300 (-3),
  r 4320000 (-3) (-41626) (-3) 79834 (-3) (-20754) (-3) 40000 (-3),
  r 4305000 (-3) (-31394) (-3) 71927 (-3) (-15644) (-3) 36020 (-3),
  r 4290104 (-3) (-28575) (-3) 65167 (-3) (-14244) (-3) 32630 (-3),
  r 4275310 (-3) (-20135) (-3) 55225 (-3) (-10034) (-3) 27640 (-3),
  r 4260619 (-3) 66197 (-4) 51737 (-3) 33427 (-4) 25860 (-3),
  r 4259155 (-3) 11501 (-3) 54932 (-3) 57867 (-4) 27450 (-3),
  r 4253311 (-3) 20447 (-3) 83786 (-3) 10306 (-3) 41850 (-3),
  r 4251852 (-3) 16472 (-3) 94459 (-3) 83438 (-4) 47190 (-3),
  r 4250394 (-3) 10721 (-3) 10190 (-2) 54888 (-4) 50920 (-3),
  r 4246028 (-3) (-58436) (-4) 97533 (-3) (-28032) (-4) 48780 (-3),
  r 4244574 (-3) (-87040) (-4) 93200 (-3) (-42442) (-4) 46620 (-3),
  r 4231536 (-3) (-19049) (-3) 99307 (-3) (-94052) (-4) 49700 (-3),
  r 4217143 (-3) (-31279) (-3) 96809 (-3) (-15534) (-3) 48480 (-3),
  r 4202847 (-3) (-39628) (-3) 93276 (-3) (-19724) (-3) 46730 (-3),
  r 4188649 (-3) (-48328) (-3) 88706 (-3) (-24094) (-3) 44460 (-3),
  r 4174545 (-3) (-50712) (-3) 76805 (-3) (-25314) (-3) 38500 (-3),
  r 4160537 (-3) (-47946) (-3) 73384 (-3) (-23934) (-3) 36780 (-3),
  r 4146622 (-3) (-47595) (-3) 69973 (-3) (-23764) (-3) 35070 (-3),
  r 4132800 (-3) (-44307) (-3) 65555 (-3) (-22124) (-3) 32850 (-3),
  r 4119070 (-3) (-39779) (-3) 66348 (-3) (-19854) (-3) 33240 (-3),
  r 4105431 (-3) (-36272) (-3) 68176 (-3) (-18094) (-3) 34150 (-3),
  r 4091881 (-3) (-35694) (-3) 74108 (-3) (-17794) (-3) 37120 (-3),
  r 4078421 (-3) (-38779) (-3) 76911 (-3) (-19334) (-3) 38530 (-3),
  r 4065049 (-3) (-40798) (-3) 77662 (-3) (-20344) (-3) 38910 (-3),
  r 4051765 (-3) (-41244) (-3) 79436 (-3) (-20564) (-3) 39800 (-3),
  r 4038567 (-3) (-43878) (-3) 84235 (-3) (-21874) (-3) 42210 (-3),
  r 4025455 (-3) (-50833) (-3) 86979 (-3) (-25354) (-3) 43600 (-3),
  r 4012427 (-3) (-57665) (-3) 84656 (-3) (-28784) (-3) 42450 (-3),
  r 3999484 (-3) (-61719) (-3) 81348 (-3) (-30824) (-3) 40800 (-3),
  r 3936000 (-3) (-69336) (-3) 65891 (-3) (-34674) (-3) 33060 (-3),
  r 3874500 (-3) (-67048) (-3) 54198 (-3) (-33544) (-3) 27190 (-3),
  r 3757091 (-3) (-62089) (-3) 48429 (-3) (-31063) (-3) 24290 (-3),
  r 3646588 (-3) (-60366) (-3) 44884 (-3) (-30203) (-3) 22510 (-3),
  r 3444000 (-3) (-58275) (-3) 37231 (-3) (-29163) (-3) 18670 (-3),
  r 3262737 (-3) (-55153) (-3) 31134 (-3) (-27603) (-3) 15610 (-3),
  r 3099600 (-3) (-51755) (-3) 26212 (-3) (-25902) (-3) 13140 (-3),
  r 2755200 (-3) (-43664) (-3) 17520 (-3) (-21852) (-3) 87790 (-4),
  r 2479680 (-3) (-36533) (-3) 12130 (-3) (-18281) (-3) 60760 (-4),
  r 2254255 (-3) (-30801) (-3) 86506 (-4) (-15411) (-3) 43320 (-4),
  r 2066400 (-3) (-26166) (-3) 63277 (-4) (-13091) (-3) 31680 (-4),
  r 1907446 (-3) (-22450) (-3) 47307 (-4) (-11231) (-3) 23680 (-4),
  r 1771200 (-3) (-19422) (-3) 36065 (-4) (-97157) (-4) 18050 (-4),
  r 1653120 (-3) (-16940) (-3) 27956 (-4) (-84736) (-4) 13990 (-4),
  r 1549800 (-3) (-14892) (-3) 21984 (-4) (-74486) (-4) 11000 (-4),
  r 1458635 (-3) (-13191) (-3) 17530 (-4) (-65975) (-4) 87710 (-5),
  r 1377600 (-3) (-11751) (-3) 14140 (-4) (-58774) (-4) 70740 (-5),
  r 1305095 (-3) (-10530) (-3) 11530 (-4) (-52664) (-4) 57680 (-5),
  r 1239840 (-3) (-94865) (-4) 94915 (-5) (-47444) (-4) 47480 (-5),
  r 1127127 (-3) (-78151) (-4) 65994 (-5) (-39083) (-4) 33010 (-5),
  r 1033200 (-3) (-65414) (-4) 47265 (-5) (-32713) (-4) 23640 (-5),
  r 9537231 (-4) (-55517) (-4) 34690 (-5) (-27762) (-4) 17350 (-5),
  r 8856000 (-4) (-47738) (-4) 26034 (-5) (-23872) (-4) 13020 (-5),
  r 8265600 (-4) (-41439) (-4) 19910 (-5) (-20722) (-4) 99570 (-6),
  r 7749000 (-4) (-36320) (-4) 15469 (-5) (-18161) (-4) 77360 (-6),
  r 7293177 (-4) (-32100) (-4) 12200 (-5) (-16051) (-4) 61010 (-6),
  r 6888000 (-4) (-28580) (-4) 97426 (-6) (-14291) (-4) 48720 (-6),
  r 6525474 (-4) (-25620) (-4) 78730 (-6) (-12811) (-4) 39370 (-6),
  r 6199200 (-4) (-23040) (-4) 64273 (-6) (-11521) (-4) 32140 (-6),
  r 4959360 (-4) (-14621) (-4) 26438 (-6) (-73106) (-5) 13220 (-6),
  r 4132800 (-4) (-10121) (-4) 12739 (-6) (-50604) (-5) 63700 (-7),
  r 3099600 (-4) (-56604) (-5) 39759 (-7) (-28302) (-5) 19880 (-7),
  r 2479680 (-4) (-36103) (-5) 15990 (-7) (-18051) (-5) 79950 (-8),
  r 2066400 (-4) (-25022) (-5) 75599 (-8) (-12511) (-5) 37800 (-8),
  r 1549800 (-4) (-14051) (-5) 23000 (-8) (-70256) (-6) 11500 (-8),
  r 1239840 (-4) (-89807) (-6) 90740 (-9) (-44904) (-6) 45370 (-9),
  r 1033200 (-4) (-62325) (-6) 53140 (-9) (-31163) (-6) 26570 (-9),
  r 8856000 (-5) (-45784) (-6) 26100 (-9) (-22892) (-6) 13050 (-9),
  r 7749000 (-5) (-35023) (-6) 13230 (-9) (-17511) (-6) 66150 (-10),
  r 6888000 (-5) (-27682) (-6) 80980 (-10) (-13841) (-6) 40490 (-10),
  r 6199200 (-5) 30811 (-10) 28941 (-17) 15405 (-10) 14471 (-17)]

end Verif.DustData
