import Verif.Conformance.Host
/-!
# The unit tests of `src/eval.rs` and `src/mapper.rs`

Every assertion of the unit tests whose function is part of the model.  Left out: `parse_isize`, `parse_isize_pair`, `parse_range` (not used by the program).
-/
namespace Nd.Conformance

open Nd.Eval

/-- `is_err()`: an error is returned; a panic or an endless loop is none. -/
def rejects : Except Err α → Bool
  | .error .panic => false
  | .error .diverge => false
  | .error _ => true
  | .ok _ => false

/-- `i64::to_string` -/
def intString (x : Int64) : List Char := if x.toInt < 0 then '-' :: Nat.toDigits 10 x.toInt.natAbs else Nat.toDigits 10 x.toInt.natAbs

/-- The variables of `test_simplify_rpn` (`src/eval.rs` 1038-1050). -/
def testVars : Vars := [(['x'], 0, false), (['y'], 1, false), (['z'], 2, false), (['a'], 3, true), (['b'], 4, true), (['c'], 5, true), (['s'], 6, false),
  (['t'], 7, false), (['u'], 8, false)]

/-- `to_string` of the tests (`src/eval.rs` 1201-1265): a reverse Polish notation as an expression. -/
def rpnString : Nat → List Tok → List Char
  | 0, _ => []
  | fuel + 1, ts =>
    let root := ts.length - 1
    match ts[root]? with
    | some (.val v, _) => intString v
    | some (.pre c, lhs) => c :: '(' :: rpnString fuel (ts.take (root - lhs + 1)) ++ [')']
    | some (.op c, lhs) =>
      let sop := if isAddsub c then (peelSign c).toOption.getD ('?', '?') else ('+', c)
      (if sop.1 = '+' then [] else [sop.1]) ++ '(' :: rpnString fuel (ts.take (root - lhs + 1)) ++ [' ', sop.2, ' '] ++
        rpnString fuel ((ts.take root).drop (root - lhs + 1)) ++ [')']
    | some (.var id c, lhs) =>
      (if c = 1 then [] else intString c ++ [' ', '*', ' ']) ++ ((testVars.find? fun v => v.2.1 = id).map (·.1)).getD [] ++
        (if lhs = 0 then [] else '[' :: rpnString fuel (ts.take (root - lhs + 1)) ++ [']'])
    | _ => []

/-- The macro of `test_simplify_rpn` (`src/eval.rs` 1036-1064). -/
def simplified (s : List Char) : Option (List Char) :=
  match tokenize testVars s with
  | .ok ts => (markPrefices ts).bind sortIntoRpn |>.bind fun rpn => (canonize rpn).toOption.map fun r => rpnString (r.length + 1) r
  | .error _ => none


/-! ## `test_precedence` -/

/-- src/eval.rs 74 -/
example : latterPrecedes (.op '*') (.op '*') = false := by decide +kernel
/-- src/eval.rs 75 -/
example : latterPrecedes (.op '*') (.op '/') = false := by decide +kernel
/-- src/eval.rs 76 -/
example : latterPrecedes (.op '*') (.op '%') = false := by decide +kernel
/-- src/eval.rs 77 -/
example : latterPrecedes (.op '/') (.op '*') = false := by decide +kernel
/-- src/eval.rs 78 -/
example : latterPrecedes (.op '%') (.op '*') = false := by decide +kernel
/-- src/eval.rs 80 -/
example : latterPrecedes (.op '*') (.op '+') = false := by decide +kernel
/-- src/eval.rs 81 -/
example : latterPrecedes (.op '*') (.op '+') = false := by decide +kernel
/-- src/eval.rs 82 -/
example : latterPrecedes (.op '*') (.op '+') = false := by decide +kernel
/-- src/eval.rs 83 -/
example : latterPrecedes (.op '/') (.op '+') = false := by decide +kernel
/-- src/eval.rs 84 -/
example : latterPrecedes (.op '%') (.op '+') = false := by decide +kernel
/-- src/eval.rs 86 -/
example : latterPrecedes (.op '+') (.op '*') = true := by decide +kernel
/-- src/eval.rs 87 -/
example : latterPrecedes (.op '+') (.op '*') = true := by decide +kernel
/-- src/eval.rs 88 -/
example : latterPrecedes (.op '+') (.op '*') = true := by decide +kernel
/-- src/eval.rs 89 -/
example : latterPrecedes (.op '+') (.op '/') = true := by decide +kernel
/-- src/eval.rs 90 -/
example : latterPrecedes (.op '+') (.op '%') = true := by decide +kernel
/-- src/eval.rs 92 -/
example : latterPrecedes (.op '+') (.op '+') = false := by decide +kernel
/-- src/eval.rs 93 -/
example : latterPrecedes (.op '-') (.op '+') = false := by decide +kernel
/-- src/eval.rs 94 -/
example : latterPrecedes (.op '+') (.op '-') = false := by decide +kernel
/-- src/eval.rs 96 -/
example : latterPrecedes (.op '*') (.op '<') = false := by decide +kernel
/-- src/eval.rs 97 -/
example : latterPrecedes (.op '<') (.op '*') = true := by decide +kernel
/-- src/eval.rs 98 -/
example : latterPrecedes (.op '+') (.op '<') = false := by decide +kernel
/-- src/eval.rs 99 -/
example : latterPrecedes (.op '<') (.op '+') = true := by decide +kernel
/-- src/eval.rs 100 -/
example : latterPrecedes (.op '<') (.op '>') = false := by decide +kernel
/-- src/eval.rs 102 -/
example : latterPrecedes (.op '*') (.op '@') = false := by decide +kernel
/-- src/eval.rs 103 -/
example : latterPrecedes (.op '@') (.op '*') = true := by decide +kernel
/-- src/eval.rs 104 -/
example : latterPrecedes (.op '+') (.op '@') = false := by decide +kernel
/-- src/eval.rs 105 -/
example : latterPrecedes (.op '@') (.op '+') = true := by decide +kernel
/-- src/eval.rs 106 -/
example : latterPrecedes (.op '@') (.op '@') = true := by decide +kernel
/-- src/eval.rs 108 -/
example : latterPrecedes (.op '+') (.op 'g') = false := by decide +kernel
/-- src/eval.rs 109 -/
example : latterPrecedes (.op 'g') (.op '+') = true := by decide +kernel
/-- src/eval.rs 110 -/
example : latterPrecedes (.op '@') (.op 'g') = false := by decide +kernel
/-- src/eval.rs 111 -/
example : latterPrecedes (.op 'g') (.op '@') = true := by decide +kernel
/-- src/eval.rs 112 -/
example : latterPrecedes (.op 'g') (.op 'g') = false := by decide +kernel

/-! ## `test_gather_sign2` -/

/-- src/eval.rs 583 -/
example : (gatherSign2 '+' '+' '+').toOption = some '+' := by decide +kernel
/-- src/eval.rs 584 -/
example : (gatherSign2 '+' '-' '+').toOption = some '-' := by decide +kernel
/-- src/eval.rs 585 -/
example : (gatherSign2 '+' '#' '+').toOption = some '#' := by decide +kernel
/-- src/eval.rs 586 -/
example : (gatherSign2 '+' '~' '+').toOption = some '~' := by decide +kernel
/-- src/eval.rs 587 -/
example : (gatherSign2 '+' '+' '-').toOption = some '-' := by decide +kernel
/-- src/eval.rs 588 -/
example : (gatherSign2 '+' '-' '-').toOption = some '+' := by decide +kernel
/-- src/eval.rs 589 -/
example : (gatherSign2 '+' '#' '-').toOption = some '~' := by decide +kernel
/-- src/eval.rs 590 -/
example : (gatherSign2 '+' '~' '-').toOption = some '#' := by decide +kernel
/-- src/eval.rs 591 -/
example : (gatherSign2 '-' '+' '+').toOption = some '~' := by decide +kernel
/-- src/eval.rs 592 -/
example : (gatherSign2 '-' '-' '+').toOption = some '#' := by decide +kernel
/-- src/eval.rs 593 -/
example : (gatherSign2 '-' '#' '+').toOption = some '-' := by decide +kernel
/-- src/eval.rs 594 -/
example : (gatherSign2 '-' '~' '+').toOption = some '+' := by decide +kernel
/-- src/eval.rs 595 -/
example : (gatherSign2 '-' '+' '-').toOption = some '#' := by decide +kernel
/-- src/eval.rs 596 -/
example : (gatherSign2 '-' '-' '-').toOption = some '~' := by decide +kernel
/-- src/eval.rs 597 -/
example : (gatherSign2 '-' '#' '-').toOption = some '+' := by decide +kernel
/-- src/eval.rs 598 -/
example : (gatherSign2 '-' '~' '-').toOption = some '-' := by decide +kernel

/-! ## `test_sort_into_rpn` -/

/-- src/eval.rs 419 -/
example : sortIntoRpn [.paren '(', .paren ')'] = some [] := by decide +kernel
/-- src/eval.rs 422 -/
example : sortIntoRpn [.paren '(', .pre '-', .val 2, .paren ')'] = some [(.val 2, 0), (.pre '-', 1)] := by decide +kernel
/-- src/eval.rs 423 -/
example : sortIntoRpn [.paren '(', .val 2, .op '-', .val 3, .paren ')'] = some [(.val 2, 0), (.val 3, 0), (.op '-', 2)] := by decide +kernel
/-- src/eval.rs 426 -/
example : sortIntoRpn [.paren '(', .pre '-', .pre '-', .val 2, .paren ')'] = some [(.val 2, 0), (.pre '-', 1), (.pre '-', 1)] := by decide +kernel
/-- src/eval.rs 432 -/
example : sortIntoRpn [.paren '(', .val 5, .op '*', .paren '(', .pre '-', .val 2, .paren ')', .paren ')'] = some [(.val 5, 0), (.val 2, 0), (.pre '-', 1), (.op '*', 3)] := by decide +kernel
/-- src/eval.rs 436 -/
example : sortIntoRpn [.paren '(', .pre '-', .paren '(', .pre '-', .val 2, .paren ')', .paren ')'] = some [(.val 2, 0), (.pre '-', 1), (.pre '-', 1)] := by decide +kernel

/-! ## `test_simplify_rpn` -/

/-- src/eval.rs 1067 -/
example : simplified (chars! "1") = some (chars! "1") := by decide +kernel
/-- src/eval.rs 1068 -/
example : simplified (chars! "!1") = some (chars! "-2") := by decide +kernel
/-- src/eval.rs 1069 -/
example : simplified (chars! "-(1)") = some (chars! "-1") := by decide +kernel
/-- src/eval.rs 1070 -/
example : simplified (chars! "-(-(1))") = some (chars! "1") := by decide +kernel
/-- src/eval.rs 1071 -/
example : simplified (chars! "-(-(-(1)))") = some (chars! "-1") := by decide +kernel
/-- src/eval.rs 1072 -/
example : simplified (chars! "1 - 3") = some (chars! "-2") := by decide +kernel
/-- src/eval.rs 1073 -/
example : simplified (chars! "x - 0") = some (chars! "x") := by decide +kernel
/-- src/eval.rs 1074 -/
example : simplified (chars! "x & -1") = some (chars! "x") := by decide +kernel
/-- src/eval.rs 1075 -/
example : simplified (chars! "x - x") = some (chars! "0") := by decide +kernel
/-- src/eval.rs 1077 -/
example : simplified (chars! "x - x") = some (chars! "0") := by decide +kernel
/-- src/eval.rs 1078 -/
example : simplified (chars! "x - y") = some (chars! "(x + -1 * y)") := by decide +kernel
/-- src/eval.rs 1079 -/
example : simplified (chars! "-(-x)") = some (chars! "x") := by decide +kernel
/-- src/eval.rs 1080 -/
example : simplified (chars! "!(!x)") = some (chars! "x") := by decide +kernel
/-- src/eval.rs 1081 -/
example : simplified (chars! "+(-x)") = some (chars! "-1 * x") := by decide +kernel
/-- src/eval.rs 1082 -/
example : simplified (chars! "!(-x)") = some (chars! "!(-1 * x)") := by decide +kernel
/-- src/eval.rs 1083 -/
example : simplified (chars! "2 + x") = some (chars! "(x + 2)") := by decide +kernel
/-- src/eval.rs 1084 -/
example : simplified (chars! "2 * x") = some (chars! "2 * x") := by decide +kernel
/-- src/eval.rs 1085 -/
example : simplified (chars! "2 & x") = some (chars! "(x & 2)") := by decide +kernel
/-- src/eval.rs 1086 -/
example : simplified (chars! "2 - x") = some (chars! "(-1 * x + 2)") := by decide +kernel
/-- src/eval.rs 1087 -/
example : simplified (chars! "2 / x") = some (chars! "(2 / x)") := by decide +kernel
/-- src/eval.rs 1088 -/
example : simplified (chars! "x - 0") = some (chars! "x") := by decide +kernel
/-- src/eval.rs 1089 -/
example : simplified (chars! "0 + x") = some (chars! "x") := by decide +kernel
/-- src/eval.rs 1090 -/
example : simplified (chars! "0 - x") = some (chars! "-1 * x") := by decide +kernel
/-- src/eval.rs 1091 -/
example : simplified (chars! "-1 & x") = some (chars! "x") := by decide +kernel
/-- src/eval.rs 1092 -/
example : simplified (chars! "0 | x") = some (chars! "x") := by decide +kernel
/-- src/eval.rs 1093 -/
example : simplified (chars! "-x + 2") = some (chars! "(-1 * x + 2)") := by decide +kernel
/-- src/eval.rs 1094 -/
example : simplified (chars! "-x - 2") = some (chars! "(-1 * x + -2)") := by decide +kernel
/-- src/eval.rs 1095 -/
example : simplified (chars! "-x + -2") = some (chars! "(-1 * x + -2)") := by decide +kernel
/-- src/eval.rs 1096 -/
example : simplified (chars! "2 + -x") = some (chars! "(-1 * x + 2)") := by decide +kernel
/-- src/eval.rs 1097 -/
example : simplified (chars! "-2 + -x") = some (chars! "(-1 * x + -2)") := by decide +kernel
/-- src/eval.rs 1098 -/
example : simplified (chars! "-x + y") = some (chars! "(-1 * x + y)") := by decide +kernel
/-- src/eval.rs 1099 -/
example : simplified (chars! "x + -y") = some (chars! "(x + -1 * y)") := by decide +kernel
/-- src/eval.rs 1100 -/
example : simplified (chars! "(x + 2) + 5") = some (chars! "(x + 7)") := by decide +kernel
/-- src/eval.rs 1101 -/
example : simplified (chars! "(x - 2) + 5") = some (chars! "(x + 3)") := by decide +kernel
/-- src/eval.rs 1102 -/
example : simplified (chars! "(x + 2) - 5") = some (chars! "(x + -3)") := by decide +kernel
/-- src/eval.rs 1103 -/
example : simplified (chars! "(x - 2) - 5") = some (chars! "(x + -7)") := by decide +kernel
/-- src/eval.rs 1104 -/
example : simplified (chars! "5 - (x + 2)") = some (chars! "(-1 * x + 3)") := by decide +kernel
/-- src/eval.rs 1105 -/
example : simplified (chars! "5 - (-x + 2)") = some (chars! "(x + 3)") := by decide +kernel
/-- src/eval.rs 1106 -/
example : simplified (chars! "5 - (2 - x)") = some (chars! "(x + 3)") := by decide +kernel
/-- src/eval.rs 1107 -/
example : simplified (chars! "x + (y + 2)") = some (chars! "((x + y) + 2)") := by decide +kernel
/-- src/eval.rs 1108 -/
example : simplified (chars! "-y - (x + 2)") = some (chars! "((-1 * x + -1 * y) + -2)") := by decide +kernel
/-- src/eval.rs 1109 -/
example : simplified (chars! "(x + 2) - y") = some (chars! "((x + -1 * y) + 2)") := by decide +kernel
/-- src/eval.rs 1110 -/
example : simplified (chars! "(y + 2) - x") = some (chars! "((-1 * x + y) + 2)") := by decide +kernel
/-- src/eval.rs 1111 -/
example : simplified (chars! "(x + y) - y") = some (chars! "x") := by decide +kernel
/-- src/eval.rs 1112 -/
example : simplified (chars! "(x + y) - y - x") = some (chars! "0") := by decide +kernel
/-- src/eval.rs 1113 -/
example : simplified (chars! "(x + 2) + (y + 5)") = some (chars! "((x + y) + 7)") := by decide +kernel
/-- src/eval.rs 1114 -/
example : simplified (chars! "(x + 2) + (5 + y)") = some (chars! "((x + y) + 7)") := by decide +kernel
/-- src/eval.rs 1115 -/
example : simplified (chars! "x + (2 + 5) + y") = some (chars! "((x + y) + 7)") := by decide +kernel
/-- src/eval.rs 1116 -/
example : simplified (chars! "2 + (y + 5) + x") = some (chars! "((x + y) + 7)") := by decide +kernel
/-- src/eval.rs 1117 -/
example : simplified (chars! "(x + 2) - (y + 5)") = some (chars! "((x + -1 * y) + -3)") := by decide +kernel
/-- src/eval.rs 1118 -/
example : simplified (chars! "(x + 2) - (y - 5)") = some (chars! "((x + -1 * y) + 7)") := by decide +kernel
/-- src/eval.rs 1119 -/
example : simplified (chars! "(x + 2) - (-y + 5)") = some (chars! "((x + y) + -3)") := by decide +kernel
/-- src/eval.rs 1120 -/
example : simplified (chars! "((2 + x) + (x + 3)) + 4") = some (chars! "(2 * x + 9)") := by decide +kernel
/-- src/eval.rs 1121 -/
example : simplified (chars! "((2 + x) + 4) + (x + 3)") = some (chars! "(2 * x + 9)") := by decide +kernel
/-- src/eval.rs 1122 -/
example : simplified (chars! "3 + (x + ((2 + x) + 4))") = some (chars! "(2 * x + 9)") := by decide +kernel
/-- src/eval.rs 1123 -/
example : simplified (chars! "((2 + x) - (x + 3)) - 4") = some (chars! "-5") := by decide +kernel
/-- src/eval.rs 1124 -/
example : simplified (chars! "((2 + x) - 4) - (x + 3)") = some (chars! "-5") := by decide +kernel
/-- src/eval.rs 1125 -/
example : simplified (chars! "3 + (x - ((2 + x) + 4))") = some (chars! "-3") := by decide +kernel
/-- src/eval.rs 1126 -/
example : simplified (chars! "x + (y + 2) - 4 * x + -3 * y") = some (chars! "((-3 * x + -2 * y) + 2)") := by decide +kernel
/-- src/eval.rs 1128 -/
example : simplified (chars! "4 >= 0") = some (chars! "1") := by decide +kernel
/-- src/eval.rs 1129 -/
example : simplified (chars! "-4 >= 0") = some (chars! "0") := by decide +kernel
/-- src/eval.rs 1130 -/
example : simplified (chars! "4 < 0") = some (chars! "0") := by decide +kernel
/-- src/eval.rs 1131 -/
example : simplified (chars! "x >= 0") = some (chars! "G(x)") := by decide +kernel
/-- src/eval.rs 1132 -/
example : simplified (chars! "x > 0") = some (chars! "G((x + -1))") := by decide +kernel
/-- src/eval.rs 1133 -/
example : simplified (chars! "x <= 0") = some (chars! "G(-1 * x)") := by decide +kernel
/-- src/eval.rs 1134 -/
example : simplified (chars! "x < 0") = some (chars! "G((-1 * x + -1))") := by decide +kernel
/-- src/eval.rs 1135 -/
example : simplified (chars! "x + 4 < 0") = some (chars! "G((-1 * x + -5))") := by decide +kernel
/-- src/eval.rs 1136 -/
example : simplified (chars! "-(y - x) < -4") = some (chars! "G(((-1 * x + y) + -5))") := by decide +kernel
/-- src/eval.rs 1137 -/
example : simplified (chars! "x <= -x + (x + x) - (-x)") = some (chars! "G(x)") := by decide +kernel
/-- src/eval.rs 1139 -/
example : simplified (chars! "a[0]") = some (chars! "a[0]") := by decide +kernel
/-- src/eval.rs 1140 -/
example : simplified (chars! "a[1]") = some (chars! "a[1]") := by decide +kernel
/-- src/eval.rs 1141 -/
example : simplified (chars! "2 * a[1]") = some (chars! "2 * a[1]") := by decide +kernel
/-- src/eval.rs 1142 -/
example : simplified (chars! "a[1] * 2") = some (chars! "2 * a[1]") := by decide +kernel
/-- src/eval.rs 1143 -/
example : simplified (chars! "2 + a[1]") = some (chars! "(a[1] + 2)") := by decide +kernel
/-- src/eval.rs 1144 -/
example : simplified (chars! "2 + a[1] * 3") = some (chars! "(3 * a[1] + 2)") := by decide +kernel
/-- src/eval.rs 1145 -/
example : simplified (chars! "0xff & b[15]") = some (chars! "(b[15] & 255)") := by decide +kernel
/-- src/eval.rs 1146 -/
example : simplified (chars! "0xff & b[15] * 2") = some (chars! "(2 * b[15] & 255)") := by decide +kernel
/-- src/eval.rs 1147 -/
example : simplified (chars! "b[15] & 0xff") = some (chars! "(b[15] & 255)") := by decide +kernel
/-- src/eval.rs 1148 -/
example : simplified (chars! "b[15] * 2 & 0xff") = some (chars! "(2 * b[15] & 255)") := by decide +kernel
/-- src/eval.rs 1149 -/
example : simplified (chars! "(b[15] * 2) & 0xff") = some (chars! "(2 * b[15] & 255)") := by decide +kernel
/-- src/eval.rs 1150 -/
example : simplified (chars! "b[15] * (2 & 0xff)") = some (chars! "2 * b[15]") := by decide +kernel
/-- src/eval.rs 1152 -/
example : simplified (chars! "a[1] * b[2]") = some (chars! "(a[1] * b[2])") := by decide +kernel

/-! ## `test_parse_vals` -/

/-- src/eval.rs 1315 -/
example : (rpnNew [(chars! "x", 0, false)] (chars! "0")).isOk = true := by decide +kernel
/-- src/eval.rs 1316 -/
example : (rpnNew [(chars! "x", 0, false)] (chars! "x")).isOk = true := by decide +kernel
/-- src/eval.rs 1317 -/
example : (rpnNew [(chars! "x", 0, false)] (chars! "x + x + x")).isOk = true := by decide +kernel
/-- src/eval.rs 1318 -/
example : (rpnNew [(chars! "xyz", 0, false)] (chars! "xyz")).isOk = true := by decide +kernel
/-- src/eval.rs 1320 -/
example : (rpnNew [(chars! "x", 0, true)] (chars! "x[0]")).isOk = true := by decide +kernel
/-- src/eval.rs 1321 -/
example : (rpnNew [(chars! "x", 0, true)] (chars! "x[1 + 3 * 2]")).isOk = true := by decide +kernel
/-- src/eval.rs 1322 -/
example : (rpnNew [(chars! "x", 0, true)] (chars! "x[2 * x[2] + 2]")).isOk = true := by decide +kernel
/-- src/eval.rs 1323 -/
example : (rpnNew [(chars! "x", 0, true)] (chars! "4 * (x[(3 - 5) * 4] + 3)")).isOk = true := by decide +kernel
/-- src/eval.rs 1324 -/
example : (rpnNew [(chars! "x", 0, true)] (chars! "5 + ((x[11] & 0xff) << 4)")).isOk = true := by decide +kernel

/-! ## `test_parse_int` -/

/-- src/eval.rs 1335 -/
example : rejects (parseInt (chars! "")) = true := by decide +kernel
/-- src/eval.rs 1336 -/
example : (parseInt (chars! "0")).toOption = some (0) := by decide +kernel
/-- src/eval.rs 1337 -/
example : (parseInt (chars! "+0")).toOption = some (0) := by decide +kernel
/-- src/eval.rs 1338 -/
example : (parseInt (chars! "-0")).toOption = some (0) := by decide +kernel
/-- src/eval.rs 1339 -/
example : (parseInt (chars! "!2")).toOption = some (-3) := by decide +kernel
/-- src/eval.rs 1340 -/
example : (parseInt (chars! "~3")).toOption = some (-4) := by decide +kernel
/-- src/eval.rs 1342 -/
example : (parseInt (chars! "0_000")).toOption = some (0) := by decide +kernel
/-- src/eval.rs 1343 -/
example : (parseInt (chars! "1_234")).toOption = some (1234) := by decide +kernel
/-- src/eval.rs 1344 -/
example : (parseInt (chars! "1_2_3_4")).toOption = some (1234) := by decide +kernel
/-- src/eval.rs 1345 -/
example : rejects (parseInt (chars! "123_4_")) = true := by decide +kernel
/-- src/eval.rs 1346 -/
example : rejects (parseInt (chars! "_123_4")) = true := by decide +kernel
/-- src/eval.rs 1347 -/
example : rejects (parseInt (chars! "123__4")) = true := by decide +kernel
/-- src/eval.rs 1349 -/
example : rejects (parseInt (chars! "0b")) = true := by decide +kernel
/-- src/eval.rs 1350 -/
example : rejects (parseInt (chars! "0B")) = true := by decide +kernel
/-- src/eval.rs 1351 -/
example : rejects (parseInt (chars! "0x")) = true := by decide +kernel
/-- src/eval.rs 1352 -/
example : (parseInt (chars! "0b0")).toOption = some (0) := by decide +kernel
/-- src/eval.rs 1353 -/
example : (parseInt (chars! "0b10")).toOption = some (2) := by decide +kernel
/-- src/eval.rs 1354 -/
example : rejects (parseInt (chars! "0b12")) = true := by decide +kernel
/-- src/eval.rs 1355 -/
example : (parseInt (chars! "0d123")).toOption = some (123) := by decide +kernel
/-- src/eval.rs 1356 -/
example : rejects (parseInt (chars! "0d123a")) = true := by decide +kernel
/-- src/eval.rs 1357 -/
example : (parseInt (chars! "0xabcdef")).toOption = some (0xabcdef) := by decide +kernel
/-- src/eval.rs 1358 -/
example : (parseInt (chars! "0xFEDCBA")).toOption = some (0xFEDCBA) := by decide +kernel
/-- src/eval.rs 1360 -/
example : (parseInt (chars! "1k")).toOption = some (1000) := by decide +kernel
/-- src/eval.rs 1361 -/
example : (parseInt (chars! "1K")).toOption = some (1000) := by decide +kernel
/-- src/eval.rs 1362 -/
example : (parseInt (chars! "1ki")).toOption = some (1024) := by decide +kernel
/-- src/eval.rs 1363 -/
example : (parseInt (chars! "1Ki")).toOption = some (1024) := by decide +kernel
/-- src/eval.rs 1365 -/
example : (parseInt (chars! "1Mi")).toOption = some (1024 * 1024) := by decide +kernel
/-- src/eval.rs 1366 -/
example : (parseInt (chars! "1g")).toOption = some (1000 * 1000 * 1000) := by decide +kernel
/-- src/eval.rs 1367 -/
example : (parseInt (chars! "4ki")).toOption = some (4096) := by decide +kernel
/-- src/eval.rs 1368 -/
example : (parseInt (chars! "-3k")).toOption = some (-3000) := by decide +kernel
/-- src/eval.rs 1370 -/
example : (parseInt (chars! "0+1")).toOption = some (1) := by decide +kernel
/-- src/eval.rs 1371 -/
example : (parseInt (chars! "4 - 3")).toOption = some (1) := by decide +kernel
/-- src/eval.rs 1372 -/
example : (parseInt (chars! "2 * 5")).toOption = some (10) := by decide +kernel
/-- src/eval.rs 1373 -/
example : (parseInt (chars! "4-1+2")).toOption = some (5) := by decide +kernel
/-- src/eval.rs 1374 -/
example : (parseInt (chars! "4- 1 +2")).toOption = some (5) := by decide +kernel
/-- src/eval.rs 1375 -/
example : (parseInt (chars! "4 -1+ 2")).toOption = some (5) := by decide +kernel
/-- src/eval.rs 1376 -/
example : (parseInt (chars! "4 -1+2")).toOption = some (5) := by decide +kernel
/-- src/eval.rs 1377 -/
example : (parseInt (chars! "4-1+   2")).toOption = some (5) := by decide +kernel
/-- src/eval.rs 1379 -/
example : (parseInt (chars! "(4 - 1)")).toOption = some (3) := by decide +kernel
/-- src/eval.rs 1380 -/
example : (parseInt (chars! "2 * (4 - 1)")).toOption = some (6) := by decide +kernel
/-- src/eval.rs 1381 -/
example : (parseInt (chars! "(4 - 1) * 2")).toOption = some (6) := by decide +kernel
/-- src/eval.rs 1382 -/
example : (parseInt (chars! "-(4 - 1) * 2")).toOption = some (-6) := by decide +kernel
/-- src/eval.rs 1383 -/
example : (parseInt (chars! "-(4 - (1 + 2)) * 2")).toOption = some (-2) := by decide +kernel
/-- src/eval.rs 1384 -/
example : (parseInt (chars! "-(4 - ((1 + 2))) * 2")).toOption = some (-2) := by decide +kernel
/-- src/eval.rs 1386 -/
example : rejects (parseInt (chars! "(*4 - 1) * 2")) = true := by decide +kernel
/-- src/eval.rs 1387 -/
example : rejects (parseInt (chars! "(4 - 1+) * 2")) = true := by decide +kernel
/-- src/eval.rs 1388 -/
example : rejects (parseInt (chars! "(4 -* 1) * 2")) = true := by decide +kernel
/-- src/eval.rs 1389 -/
example : rejects (parseInt (chars! "(4 - 1 * 2")) = true := by decide +kernel
/-- src/eval.rs 1390 -/
example : rejects (parseInt (chars! "4 - 1) * 2")) = true := by decide +kernel
/-- src/eval.rs 1391 -/
example : rejects (parseInt (chars! "(4 - 1)) * 2")) = true := by decide +kernel
/-- src/eval.rs 1393 -/
example : (parseInt (chars! "4+-2")).toOption = some (2) := by decide +kernel
/-- src/eval.rs 1394 -/
example : (parseInt (chars! "4+ -2")).toOption = some (2) := by decide +kernel
/-- src/eval.rs 1395 -/
example : (parseInt (chars! "4 +-2")).toOption = some (2) := by decide +kernel
/-- src/eval.rs 1396 -/
example : (parseInt (chars! "4+- 2")).toOption = some (2) := by decide +kernel
/-- src/eval.rs 1397 -/
example : (parseInt (chars! "4 + -2")).toOption = some (2) := by decide +kernel
/-- src/eval.rs 1398 -/
example : (parseInt (chars! "15 & !2")).toOption = some (13) := by decide +kernel
/-- src/eval.rs 1400 -/
example : (parseInt (chars! "15 << 0")).toOption = some (15) := by decide +kernel
/-- src/eval.rs 1401 -/
example : (parseInt (chars! "15 >> 0")).toOption = some (15) := by decide +kernel
/-- src/eval.rs 1402 -/
example : (parseInt (chars! "15 << 2")).toOption = some (60) := by decide +kernel
/-- src/eval.rs 1403 -/
example : (parseInt (chars! "15 >> 2")).toOption = some (3) := by decide +kernel
/-- src/eval.rs 1404 -/
example : (parseInt (chars! "15 << -2")).toOption = some (3) := by decide +kernel
/-- src/eval.rs 1405 -/
example : (parseInt (chars! "15 >> -2")).toOption = some (60) := by decide +kernel
/-- src/eval.rs 1406 -/
example : (parseInt (chars! "15 <<-2")).toOption = some (3) := by decide +kernel
/-- src/eval.rs 1407 -/
example : (parseInt (chars! "15 >>-2")).toOption = some (60) := by decide +kernel
/-- src/eval.rs 1409 -/
example : (parseInt (chars! "3 * 4 - 1")).toOption = some (11) := by decide +kernel
/-- src/eval.rs 1410 -/
example : (parseInt (chars! "4 - 1 * 5")).toOption = some (-1) := by decide +kernel
/-- src/eval.rs 1412 -/
example : (parseInt (chars! "3 << 2 - 1")).toOption = some (6) := by decide +kernel
/-- src/eval.rs 1413 -/
example : (parseInt (chars! "3 - 2 << 1")).toOption = some (2) := by decide +kernel
/-- src/eval.rs 1415 -/
example : (parseInt (chars! "4 - 2 @ 3")).toOption = some (8) := by decide +kernel
/-- src/eval.rs 1416 -/
example : (parseInt (chars! "3 @ 2 - 1")).toOption = some (3) := by decide +kernel
/-- src/eval.rs 1417 -/
example : (parseInt (chars! "2 @ 3 @ 2")).toOption = some (512) := by decide +kernel
/-- src/eval.rs 1419 -/
example : (parseInt (chars! "3 @ (0 - 2)")).toOption = some (0) := by decide +kernel
/-- src/eval.rs 1420 -/
example : (parseInt (chars! "3@-2")).toOption = some (0) := by decide +kernel
/-- src/eval.rs 1421 -/
example : (parseInt (chars! "-12@2")).toOption = some (-144) := by decide +kernel
/-- src/eval.rs 1422 -/
example : (parseInt (chars! "(-12)@2")).toOption = some (144) := by decide +kernel
/-- src/eval.rs 1424 -/
example : rejects (parseInt (chars! "4 : 3")) = true := by decide +kernel
/-- src/eval.rs 1425 -/
example : rejects (parseInt (chars! "4 + 3;")) = true := by decide +kernel
/-- src/eval.rs 1426 -/
example : rejects (parseInt (chars! "4 - `3")) = true := by decide +kernel
/-- src/eval.rs 1427 -/
example : rejects (parseInt (chars! "4,3")) = true := by decide +kernel

/-! ## `test_parse_usize` -/

/-- src/eval.rs 1446 -/
example : rejects (parseUsize (chars! "")) = true := by decide +kernel
/-- src/eval.rs 1447 -/
example : (parseUsize (chars! "0")).toOption = some (0) := by decide +kernel
/-- src/eval.rs 1448 -/
example : (parseUsize (chars! "100000")).toOption = some (100000) := by decide +kernel
/-- src/eval.rs 1449 -/
example : (parseUsize (chars! "4Gi")).toOption = some (1 <<< 32) := by decide +kernel
/-- src/eval.rs 1450 -/
example : (parseUsize (chars! "-0")).toOption = some (0) := by decide +kernel
/-- src/eval.rs 1451 -/
example : rejects (parseUsize (chars! "-1")) = true := by decide +kernel

/-! ## `test_parse_delimited` -/

/-- src/eval.rs 1499 -/
example : (Args.parseDelimited (chars! "")).toOption = some [none] := by decide +kernel
/-- src/eval.rs 1500 -/
example : (Args.parseDelimited (chars! ",")).toOption = some [none, none] := by decide +kernel
/-- src/eval.rs 1501 -/
example : (Args.parseDelimited (chars! ",,")).toOption = some [none, none, none] := by decide +kernel
/-- src/eval.rs 1503 -/
example : (Args.parseDelimited (chars! "0")).toOption = some [some (0)] := by decide +kernel
/-- src/eval.rs 1504 -/
example : (Args.parseDelimited (chars! ",1")).toOption = some [none, some (1)] := by decide +kernel
/-- src/eval.rs 1505 -/
example : (Args.parseDelimited (chars! "2,")).toOption = some [some (2), none] := by decide +kernel
/-- src/eval.rs 1506 -/
example : (Args.parseDelimited (chars! "4,,5,2,")).toOption = some [some (4), none, some (5), some (2), none] := by decide +kernel
/-- src/eval.rs 1511 -/
example : rejects (Args.parseDelimited (chars! "a")) = true := by decide +kernel
/-- src/eval.rs 1512 -/
example : rejects (Args.parseDelimited (chars! ",-")) = true := by decide +kernel
/-- src/eval.rs 1513 -/
example : rejects (Args.parseDelimited (chars! "+,")) = true := by decide +kernel

/-! ## `test_parse_usize_pair` -/

/-- src/eval.rs 1542 -/
example : rejects (Args.parseUsizePair (chars! "")) = true := by decide +kernel
/-- src/eval.rs 1543 -/
example : rejects (Args.parseUsizePair (chars! ",,")) = true := by decide +kernel
/-- src/eval.rs 1544 -/
example : rejects (Args.parseUsizePair (chars! "0,,2")) = true := by decide +kernel
/-- src/eval.rs 1545 -/
example : rejects (Args.parseUsizePair (chars! ",1,2")) = true := by decide +kernel
/-- src/eval.rs 1546 -/
example : rejects (Args.parseUsizePair (chars! "0,1,2")) = true := by decide +kernel
/-- src/eval.rs 1547 -/
example : rejects (Args.parseUsizePair (chars! "x,3")) = true := by decide +kernel
/-- src/eval.rs 1548 -/
example : rejects (Args.parseUsizePair (chars! "0,y")) = true := by decide +kernel
/-- src/eval.rs 1550 -/
example : (Args.parseUsizePair (chars! ",")).toOption = some (0, 0) := by decide +kernel
/-- src/eval.rs 1551 -/
example : (Args.parseUsizePair (chars! "1,")).toOption = some (1, 0) := by decide +kernel
/-- src/eval.rs 1552 -/
example : (Args.parseUsizePair (chars! "1")).toOption = some (1, 0) := by decide +kernel
/-- src/eval.rs 1553 -/
example : (Args.parseUsizePair (chars! ",3")).toOption = some (0, 3) := by decide +kernel
/-- src/eval.rs 1554 -/
example : (Args.parseUsizePair (chars! "4,5")).toOption = some (4, 5) := by decide +kernel
/-- src/eval.rs 1556 -/
example : rejects (Args.parseUsizePair (chars! "-1,")) = true := by decide +kernel
/-- src/eval.rs 1557 -/
example : rejects (Args.parseUsizePair (chars! "1,-1")) = true := by decide +kernel

/-! ## `test_segment_mapper_from_str` -/

/-- src/mapper.rs 104 -/
example : rejects (SegmentMapper.fromStr (chars! "")) = true := by decide +kernel
/-- src/mapper.rs 105 -/
example : rejects (SegmentMapper.fromStr (chars! ",")) = true := by decide +kernel
/-- src/mapper.rs 106 -/
example : rejects (SegmentMapper.fromStr (chars! ".")) = true := by decide +kernel
/-- src/mapper.rs 107 -/
example : rejects (SegmentMapper.fromStr (chars! "...")) = true := by decide +kernel
/-- src/mapper.rs 108 -/
example : rejects (SegmentMapper.fromStr (chars! "0...1")) = true := by decide +kernel
/-- src/mapper.rs 110 -/
example : rejects (SegmentMapper.fromStr (chars! "x..y")) = true := by decide +kernel
/-- src/mapper.rs 111 -/
example : rejects (SegmentMapper.fromStr (chars! "s * 2..e")) = true := by decide +kernel
/-- src/mapper.rs 114 -/
example : (SegmentMapper.fromStr (chars! "..")).toOption = some ⟨⟨0, 0⟩, ⟨1, 0⟩⟩ := by decide +kernel
/-- src/mapper.rs 115 -/
example : (SegmentMapper.fromStr (chars! "0..")).toOption = some ⟨⟨0, 0⟩, ⟨1, 0⟩⟩ := by decide +kernel
/-- src/mapper.rs 116 -/
example : (SegmentMapper.fromStr (chars! "-1..")).toOption = some ⟨⟨0, -1⟩, ⟨1, 0⟩⟩ := by decide +kernel
/-- src/mapper.rs 117 -/
example : (SegmentMapper.fromStr (chars! "10..")).toOption = some ⟨⟨0, 10⟩, ⟨1, 0⟩⟩ := by decide +kernel
/-- src/mapper.rs 118 -/
example : (SegmentMapper.fromStr (chars! "..0")).toOption = some ⟨⟨0, 0⟩, ⟨0, 0⟩⟩ := by decide +kernel
/-- src/mapper.rs 119 -/
example : (SegmentMapper.fromStr (chars! "..3")).toOption = some ⟨⟨0, 0⟩, ⟨0, 3⟩⟩ := by decide +kernel
/-- src/mapper.rs 121 -/
example : (SegmentMapper.fromStr (chars! "3..-1")).toOption = some ⟨⟨0, 3⟩, ⟨0, -1⟩⟩ := by decide +kernel
/-- src/mapper.rs 122 -/
example : (SegmentMapper.fromStr (chars! "3..10")).toOption = some ⟨⟨0, 3⟩, ⟨0, 10⟩⟩ := by decide +kernel
/-- src/mapper.rs 125 -/
example : (SegmentMapper.fromStr (chars! "e..")).toOption = some ⟨⟨1, 0⟩, ⟨1, 0⟩⟩ := by decide +kernel
/-- src/mapper.rs 126 -/
example : (SegmentMapper.fromStr (chars! "e..3")).toOption = some ⟨⟨1, 0⟩, ⟨0, 3⟩⟩ := by decide +kernel
/-- src/mapper.rs 127 -/
example : (SegmentMapper.fromStr (chars! "e-1..")).toOption = some ⟨⟨1, -1⟩, ⟨1, 0⟩⟩ := by decide +kernel
/-- src/mapper.rs 128 -/
example : (SegmentMapper.fromStr (chars! "e+3..-1")).toOption = some ⟨⟨1, 3⟩, ⟨0, -1⟩⟩ := by decide +kernel
/-- src/mapper.rs 129 -/
example : (SegmentMapper.fromStr (chars! "..e")).toOption = some ⟨⟨0, 0⟩, ⟨1, 0⟩⟩ := by decide +kernel
/-- src/mapper.rs 130 -/
example : (SegmentMapper.fromStr (chars! "..3+e")).toOption = some ⟨⟨0, 0⟩, ⟨1, 3⟩⟩ := by decide +kernel
/-- src/mapper.rs 131 -/
example : (SegmentMapper.fromStr (chars! "..3+s")).toOption = some ⟨⟨0, 0⟩, ⟨0, 3⟩⟩ := by decide +kernel
/-- src/mapper.rs 132 -/
example : (SegmentMapper.fromStr (chars! "-1..e")).toOption = some ⟨⟨0, -1⟩, ⟨1, 0⟩⟩ := by decide +kernel
/-- src/mapper.rs 133 -/
example : (SegmentMapper.fromStr (chars! "+3..-1+e")).toOption = some ⟨⟨0, 3⟩, ⟨1, -1⟩⟩ := by decide +kernel

/-! ## `test_segment_mapper_evaluate` -/

/-- src/mapper.rs 148 -/
example : ((SegmentMapper.fromStr (chars! "..")).map fun m => m.evaluate (10, 20) (30, 40)).toOption = some (10, 40) := by decide +kernel
/-- src/mapper.rs 149 -/
example : ((SegmentMapper.fromStr (chars! "3..")).map fun m => m.evaluate (10, 20) (30, 40)).toOption = some (13, 40) := by decide +kernel
/-- src/mapper.rs 150 -/
example : ((SegmentMapper.fromStr (chars! "..5")).map fun m => m.evaluate (10, 20) (30, 40)).toOption = some (10, 35) := by decide +kernel
/-- src/mapper.rs 151 -/
example : ((SegmentMapper.fromStr (chars! "3..5")).map fun m => m.evaluate (10, 20) (30, 40)).toOption = some (13, 35) := by decide +kernel
/-- src/mapper.rs 153 -/
example : ((SegmentMapper.fromStr (chars! "s..e")).map fun m => m.evaluate (10, 20) (30, 40)).toOption = some (10, 40) := by decide +kernel
/-- src/mapper.rs 154 -/
example : ((SegmentMapper.fromStr (chars! "3+s..e")).map fun m => m.evaluate (10, 20) (30, 40)).toOption = some (13, 40) := by decide +kernel
/-- src/mapper.rs 155 -/
example : ((SegmentMapper.fromStr (chars! "s..e+5")).map fun m => m.evaluate (10, 20) (30, 40)).toOption = some (10, 45) := by decide +kernel
/-- src/mapper.rs 156 -/
example : ((SegmentMapper.fromStr (chars! "3+s..e+5")).map fun m => m.evaluate (10, 20) (30, 40)).toOption = some (13, 45) := by decide +kernel
/-- src/mapper.rs 158 -/
example : ((SegmentMapper.fromStr (chars! "e..e")).map fun m => m.evaluate (10, 20) (30, 40)).toOption = some (20, 40) := by decide +kernel
/-- src/mapper.rs 159 -/
example : ((SegmentMapper.fromStr (chars! "3+e..e")).map fun m => m.evaluate (10, 20) (30, 40)).toOption = some (23, 40) := by decide +kernel
/-- src/mapper.rs 160 -/
example : ((SegmentMapper.fromStr (chars! "e..e+5")).map fun m => m.evaluate (10, 20) (30, 40)).toOption = some (20, 45) := by decide +kernel
/-- src/mapper.rs 161 -/
example : ((SegmentMapper.fromStr (chars! "3+e..e+5")).map fun m => m.evaluate (10, 20) (30, 40)).toOption = some (23, 45) := by decide +kernel

/-! ## `test_range_mapper_from_str` -/

/-- src/mapper.rs 250 -/
example : rejects (RangeMapper.fromStr (chars! "")) = true := by decide +kernel
/-- src/mapper.rs 251 -/
example : rejects (RangeMapper.fromStr (chars! "")) = true := by decide +kernel
/-- src/mapper.rs 252 -/
example : rejects (RangeMapper.fromStr (chars! "aaa")) = true := by decide +kernel
/-- src/mapper.rs 253 -/
example : rejects (RangeMapper.fromStr (chars! "a..b")) = true := by decide +kernel
/-- src/mapper.rs 255 -/
example : rejects (RangeMapper.fromStr (chars! "..,")) = true := by decide +kernel
/-- src/mapper.rs 256 -/
example : rejects (RangeMapper.fromStr (chars! "..-")) = true := by decide +kernel
/-- src/mapper.rs 258 -/
example : (RangeMapper.fromStr (chars! "..")).toOption = some ⟨.fromStart 0, .fromEnd 0⟩ := by decide +kernel
/-- src/mapper.rs 265 -/
example : (RangeMapper.fromStr (chars! "s..")).toOption = some ⟨.fromStart 0, .fromEnd 0⟩ := by decide +kernel
/-- src/mapper.rs 272 -/
example : (RangeMapper.fromStr (chars! "s..e")).toOption = some ⟨.fromStart 0, .fromEnd 0⟩ := by decide +kernel
/-- src/mapper.rs 280 -/
example : (RangeMapper.fromStr (chars! "1..3")).toOption = some ⟨.fromStart 1, .fromStart 3⟩ := by decide +kernel
/-- src/mapper.rs 287 -/
example : (RangeMapper.fromStr (chars! "-10..-1")).toOption = some ⟨.fromStart 0, .fromStart 0⟩ := by decide +kernel
/-- src/mapper.rs 294 -/
example : (RangeMapper.fromStr (chars! "100..10")).toOption = some ⟨.fromStart 100, .fromStart 10⟩ := by decide +kernel
/-- src/mapper.rs 302 -/
example : (RangeMapper.fromStr (chars! "s+100..e-10")).toOption = some ⟨.fromStart 100, .fromEnd 10⟩ := by decide +kernel
/-- src/mapper.rs 309 -/
example : (RangeMapper.fromStr (chars! "s+100..e+10")).toOption = some ⟨.fromStart 100, .fromEnd 0⟩ := by decide +kernel
/-- src/mapper.rs 316 -/
example : (RangeMapper.fromStr (chars! "e+100..e-10")).toOption = some ⟨.fromEnd 0, .fromEnd 10⟩ := by decide +kernel
/-- src/mapper.rs 323 -/
example : (RangeMapper.fromStr (chars! "e-100..e-10")).toOption = some ⟨.fromEnd 100, .fromEnd 10⟩ := by decide +kernel
/-- src/mapper.rs 331 -/
example : rejects (RangeMapper.fromStr (chars! "2 * s..e")) = true := by decide +kernel
/-- src/mapper.rs 332 -/
example : (RangeMapper.fromStr (chars! "2 * s - s..e + e - e")).toOption = some ⟨.fromStart 0, .fromEnd 0⟩ := by decide +kernel
/-- src/mapper.rs 339 -/
example : (RangeMapper.fromStr (chars! "s + 1ki..e - 3M")).toOption = some ⟨.fromStart 1024, .fromEnd 3000000⟩ := by decide +kernel

end Nd.Conformance
