/-!
# Moving the lanes of SIMD vectors

Model of `CCSimdSwizzle`, `CCSimdInterleave` and `CCSimdMerge` for the 128-bit and the 64-bit
registers (CommonC/Simd128_arm.h lines 877-1811, CommonC/Simd64_arm.h lines 612-1218), down to the
tables of NEON instructions their switches return.

A register is the list of its lanes, lane 0 first, over an arbitrary type `α` of lane values (none
of the instructions involved looks at a value).  Reinterpreting a register so that its lanes are
twice as wide makes pairs of neighbouring lanes.  The instructions are those of the "ARM NEON
Intrinsics Reference"; a lane number outside the register (which does not compile) is `none`, as
are a failed assertion and the end of a switch without a matching case (`CC_UNREACHABLE`).  The
element types of the reinterpreting casts are not modelled.  The tables are a transcription of
every case of the switches.
-/
namespace Verif.SimdShuffle

/-- Neighbouring lanes read as one lane of twice the width: `vreinterpretq_##kind##64_##base`
(CommonC/Simd128_arm.h line 925 and others). -/
def pairs {α : Type} : List α → List (α × α)
  | x :: y :: r => (x, y) :: pairs r
  | _ => []

/-- The lanes of twice the width split again: `vreinterpretq_##base##_##kind##64`
(CommonC/Simd128_arm.h line 925 and others). -/
def unpairs {α : Type} : List (α × α) → List α
  | (x, y) :: r => x :: y :: unpairs r
  | [] => []

/-- The lanes of two registers taken alternately; used by the instructions below (NEON `vzip`,
`vtrn`, CommonC/Simd128_arm.h lines 908-1163). -/
def alternate {α : Type} : List α → List α → List α
  | x :: r, y :: s => x :: y :: alternate r s
  | _, _ => []

/-- The lanes with even numbers (NEON `vuzp1`, `vtrn1`, CommonC/Simd128_arm.h lines 908-1163). -/
def evens {α : Type} : List α → List α
  | x :: _ :: r => x :: evens r
  | [x] => [x]
  | [] => []

/-- The lanes with odd numbers (NEON `vuzp2`, `vtrn2`, CommonC/Simd128_arm.h lines 908-1163). -/
def odds {α : Type} : List α → List α
  | _ :: y :: r => y :: odds r
  | _ => []

/-- `vdupq_laneq`/`vdup_lane` (CommonC/Simd128_arm.h line 908): every lane becomes lane `i`. -/
def dup {α : Type} (a : List α) (i : Nat) : Option (List α) :=
  (a[i]?).map (List.replicate a.length)

/-- `vcopyq_laneq`/`vcopy_lane` (CommonC/Simd128_arm.h line 919): lane `i` of `a` becomes lane `j`
of `b`. -/
def copy {α : Type} (a : List α) (i : Nat) (b : List α) (j : Nat) : Option (List α) :=
  if i < a.length then (b[j]?).map (a.set i) else none

/-- `vextq`/`vext` (CommonC/Simd128_arm.h line 911): the lanes from number `k` on of `a` followed
by `b`. -/
def ext {α : Type} (a b : List α) (k : Nat) : Option (List α) :=
  if k < a.length then some (((a ++ b).drop k).take a.length) else none

/-- `vzip1q` (CommonC/Simd128_arm.h line 909): the low halves taken alternately. -/
def zip1 {α : Type} (a b : List α) : List α :=
  alternate (a.take (a.length / 2)) (b.take (b.length / 2))

/-- `vzip2q` (CommonC/Simd128_arm.h line 924): the high halves taken alternately. -/
def zip2 {α : Type} (a b : List α) : List α :=
  alternate (a.drop (a.length / 2)) (b.drop (b.length / 2))

/-- `vrev64q` for 32-bit lanes, `vrev32` for 16-bit lanes (CommonC/Simd128_arm.h line 922,
CommonC/Simd64_arm.h line 649): neighbouring lanes exchanged. -/
def rev2 {α : Type} : List α → List α
  | x :: y :: r => y :: x :: rev2 r
  | r => r

/-- The expressions returned by the switches: `a` and `b` are the arguments, the others are the
instructions above (`revAll` is `vrev128q` of CommonC/Simd128_arm.h lines 877-883, or `vrev64` for
a 64-bit register); those called `wide…` act on the register read with lanes of twice the width and
are read back with the original lanes (CommonC/Simd128_arm.h lines 903-1163). -/
inductive E where
  | a
  | b
  | dup (x : E) (i : Nat)
  | copy (x : E) (i : Nat) (y : E) (j : Nat)
  | ext (x y : E) (k : Nat)
  | zip1 (x y : E)
  | zip2 (x y : E)
  | uzp1 (x y : E)
  | uzp2 (x y : E)
  | trn1 (x y : E)
  | trn2 (x y : E)
  | rev2 (x : E)
  | revAll (x : E)
  | wideDup (x : E) (i : Nat)
  | wideCopy (x : E) (i : Nat) (y : E) (j : Nat)
  | wideZip1 (x y : E)
  | wideZip2 (x y : E)

/-- The value of an expression for the arguments `a` and `b` (CommonC/Simd128_arm.h lines
903-1163). -/
def E.eval {α : Type} (a b : List α) : E → Option (List α)
  | .a => some a
  | .b => some b
  | .dup x i => do SimdShuffle.dup (← x.eval a b) i
  | .copy x i y j => do SimdShuffle.copy (← x.eval a b) i (← y.eval a b) j
  | .ext x y k => do SimdShuffle.ext (← x.eval a b) (← y.eval a b) k
  | .zip1 x y => do return SimdShuffle.zip1 (← x.eval a b) (← y.eval a b)
  | .zip2 x y => do return SimdShuffle.zip2 (← x.eval a b) (← y.eval a b)
  | .uzp1 x y => do return evens ((← x.eval a b) ++ (← y.eval a b))
  | .uzp2 x y => do return odds ((← x.eval a b) ++ (← y.eval a b))
  | .trn1 x y => do return alternate (evens (← x.eval a b)) (evens (← y.eval a b))
  | .trn2 x y => do return alternate (odds (← x.eval a b)) (odds (← y.eval a b))
  | .rev2 x => do return SimdShuffle.rev2 (← x.eval a b)
  | .revAll x => do return (← x.eval a b).reverse
  | .wideDup x i => do return unpairs (← SimdShuffle.dup (pairs (← x.eval a b)) i)
  | .wideCopy x i y j => do
      return unpairs (← SimdShuffle.copy (pairs (← x.eval a b)) i (pairs (← y.eval a b)) j)
  | .wideZip1 x y => do return unpairs (SimdShuffle.zip1 (pairs (← x.eval a b)) (pairs (← y.eval a b)))
  | .wideZip2 x y => do return unpairs (SimdShuffle.zip2 (pairs (← x.eval a b)) (pairs (← y.eval a b)))

/-- What a case of the switch of `CCSimdInterleave` returns: an expression, or the result of
`CCSimdInterleave` for half as many lanes of twice the width with the given constants
(CommonC/Simd128_arm.h lines 1218-1547). -/
inductive Case where
  | expr (e : E)
  | wide (vs : List Nat)

/-- The value a switch is over: the arguments `v0, v1, …`, the last one in the lowest `w` bits,
the one before it in the next `w` bits and so on (`(v0 << 6) | (v1 << 4) | (v2 << 2) | v3`,
CommonC/Simd128_arm.h lines 889, 906, 1193, 1210, 1239, 1288; `CC_SIMD_MERGE_MASK`, lines 1589 and
1614). -/
def key (w : Nat) (vs : List Nat) : Nat :=
  vs.foldl (fun k v => (k <<< w) ||| v) 0

namespace Q

/-- The cases of the switch of `CCSimdSwizzle` for 2 lanes of a 128-bit register
(CommonC/Simd128_arm.h lines 891-894). -/
def swizzleTable2 : List (Nat × E) := [
  (0, .dup .a 0),
  (1, .a),
  (2, .revAll .a),
  (3, .dup .a 1)
]

/-- The cases of the switch of `CCSimdSwizzle` for 4 lanes of a 128-bit register
(CommonC/Simd128_arm.h lines 908-1163). -/
def swizzleTable4 : List (Nat × E) := [
  (0, .dup .a 0),
  (1, .zip1 (.dup .a 0) .a),
  (2, .uzp1 (.dup .a 0) .a),
  (3, .ext (.dup .a 0) (.dup .a 3) 1),
  (4, .zip1 .a (.dup .a 0)),
  (5, .zip1 .a .a),
  (6, .ext (.dup .a 0) .a 3),
  (7, .uzp2 (.dup .a 0) .a),
  (8, .trn1 .a (.dup .a 0)),
  (9, .trn1 .a (.zip1 .a .a)),
  (10, .trn1 .a .a),
  (11, .copy .a 1 .a 0),
  (12, .copy (.dup .a 0) 2 .a 3),
  (13, .copy (.zip1 .a .a) 2 .a 3),
  (14, .copy (.rev2 .a) 0 .a 0),
  (15, .ext (.dup .a 0) (.dup .a 3) 2),
  (16, .zip2 (.dup .a 0) (.revAll .a)),
  (17, .wideDup .a 0),
  (18, .copy (.uzp1 .a .a) 1 .a 1),
  (19, .copy .a 2 .a 0),
  (20, .zip1 .a (.rev2 .a)),
  (21, .zip1 .a (.dup .a 1)),
  (22, .zip1 .a (.ext .a .a 1)),
  (23, .copy .a 2 .a 1),
  (24, .copy .a 3 .a 0),
  (25, .copy .a 3 .a 1),
  (26, .copy .a 3 .a 2),
  (27, .a),
  (28, .wideCopy (.ext .a .a 1) 0 .a 0),
  (29, .copy (.wideCopy .a 1 .a 0) 2 .a 3),
  (30, .wideCopy (.rev2 .a) 0 .a 0),
  (31, .copy .a 2 .a 3),
  (32, .uzp1 .a (.dup .a 0)),
  (33, .copy (.uzp1 .a .a) 3 .a 1),
  (34, .uzp1 .a .a),
  (35, .zip2 (.dup .a 0) .a),
  (36, .copy (.revAll .a) 0 .a 0),
  (37, .uzp1 .a (.dup .a 1)),
  (38, .zip1 .a (.dup .a 2)),
  (39, .uzp2 (.rev2 .a) .a),
  (40, .uzp1 .a (.ext .a .a 2)),
  (41, .copy (.copy .a 1 .a 2) 3 .a 1),
  (42, .uzp1 .a (.dup .a 2)),
  (43, .copy .a 1 .a 2),
  (44, .copy (.ext .a .a 1) 0 .a 0),
  (45, .uzp1 .a (.revAll .a)),
  (46, .copy (.uzp1 .a .a) 2 .a 3),
  (47, .uzp1 .a (.dup .a 3)),
  (48, .copy (.dup .a 0) 1 .a 3),
  (49, .trn1 (.dup .a 0) (.revAll .a)),
  (50, .zip1 (.dup .a 0) (.revAll .a)),
  (51, .trn1 (.dup .a 0) (.dup .a 3)),
  (52, .zip1 .a (.ext .a .a 3)),
  (53, .copy (.zip1 .a .a) 1 .a 3),
  (54, .zip1 .a (.revAll .a)),
  (55, .zip1 .a (.dup .a 3)),
  (56, .ext (.rev2 .a) .a 1),
  (57, .ext (.revAll .a) (.revAll .a) 3),
  (58, .copy (.trn1 .a .a) 1 .a 3),
  (59, .copy .a 1 .a 3),
  (60, .zip1 (.zip1 .a (.ext .a .a 3)) (.ext .a .a 3)),
  (61, .uzp1 (.uzp1 .a (.ext .a .a 3)) (.ext .a .a 3)),
  (62, .zip2 (.ext (.rev2 .a) (.rev2 .a) 3) (.rev2 .a)),
  (63, .ext (.dup .a 0) (.dup .a 3) 3),
  (64, .zip2 (.revAll .a) (.dup .a 0)),
  (65, .zip1 (.rev2 .a) .a),
  (66, .copy (.rev2 .a) 2 .a 0),
  (67, .ext (.zip1 .a (.ext .a .a 3)) (.zip1 .a (.ext .a .a 3)) 2),
  (68, .ext (.revAll .a) (.rev2 .a) 2),
  (69, .zip1 (.dup .a 1) .a),
  (70, .ext (.dup .a 1) .a 3),
  (71, .copy (.uzp2 .a .a) 1 .a 0),
  (72, .rev2 (.uzp1 (.zip1 .a .a) .a)),
  (73, .zip1 (.ext .a .a 1) .a),
  (74, .copy (.rev2 .a) 2 .a 2),
  (75, .wideCopy (.rev2 .a) 1 .a 1),
  (76, .trn2 .a (.dup .a 0)),
  (77, .copy (.rev2 .a) 3 .a 1),
  (78, .ext (.revAll .a) (.revAll .a) 2),
  (79, .copy (.rev2 .a) 3 .a 3),
  (80, .zip2 (.revAll .a) (.revAll .a)),
  (81, .ext (.dup .a 1) .a 2),
  (82, .uzp1 (.dup .a 1) .a),
  (83, .copy (.trn2 .a .a) 2 .a 0),
  (84, .ext (.dup .a 1) .a 1),
  (85, .dup .a 1),
  (86, .ext (.dup .a 1) (.dup .a 2) 1),
  (87, .uzp2 (.dup .a 1) .a),
  (88, .copy (.copy .a 0 .a 1) 3 .a 0),
  (89, .copy (.dup .a 1) 2 .a 2),
  (90, .ext (.dup .a 1) (.dup .a 2) 2),
  (91, .copy .a 0 .a 1),
  (92, .copy (.ext .a .a 1) 1 .a 1),
  (93, .trn2 .a (.dup .a 1)),
  (94, .copy (.rev2 .a) 1 .a 1),
  (95, .trn2 .a .a),
  (96, .copy (.ext .a .a 1) 2 .a 0),
  (97, .wideCopy (.ext .a .a 1) 1 .a 0),
  (98, .zip2 (.revAll .a) (.dup .a 2)),
  (99, .zip2 (.revAll .a) .a),
  (100, .trn2 (.dup .a 1) (.revAll .a)),
  (101, .copy (.dup .a 1) 1 .a 2),
  (102, .trn1 (.dup .a 1) (.dup .a 2)),
  (103, .zip2 (.dup .a 1) .a),
  (104, .copy (.ext .a .a 1) 2 .a 2),
  (105, .zip1 (.ext .a .a 1) (.rev2 (.ext .a .a 1))),
  (106, .ext (.dup .a 1) (.dup .a 2) 3),
  (107, .zip2 (.ext .a .a 3) .a),
  (108, .ext .a .a 1),
  (109, .ext .a (.rev2 .a) 1),
  (110, .ext .a (.dup .a 2) 1),
  (111, .ext .a (.dup .a 3) 1),
  (112, .uzp2 .a (.dup .a 0)),
  (113, .copy (.ext .a .a 2) 0 .a 1),
  (114, .uzp1 (.rev2 .a) .a),
  (115, .zip2 (.revAll .a) (.dup .a 3)),
  (116, .copy (.uzp2 .a .a) 3 .a 0),
  (117, .uzp2 .a (.dup .a 1)),
  (118, .zip1 (.dup .a 1) (.revAll .a)),
  (119, .uzp2 .a .a),
  (120, .uzp2 .a (.revAll .a)),
  (121, .uzp2 .a (.uzp1 .a (.dup .a 1))),
  (122, .uzp2 .a (.dup .a 2)),
  (123, .copy (.uzp2 .a .a) 2 .a 2),
  (124, .copy (.ext .a .a 1) 1 .a 3),
  (125, .uzp2 .a (.ext .a .a 2)),
  (126, .copy (.rev2 .a) 1 .a 3),
  (127, .uzp2 .a (.dup .a 3)),
  (128, .uzp2 (.revAll .a) (.dup .a 0)),
  (129, .copy (.ext .a .a 2) 1 .a 0),
  (130, .uzp1 (.ext .a .a 2) .a),
  (131, .uzp2 (.ext .a .a 1) (.uzp2 (.ext .a .a 1) .a)),
  (132, .revAll (.uzp1 (.zip1 .a .a) .a)),
  (133, .uzp2 (.revAll .a) (.dup .a 1)),
  (134, .ext (.dup .a 2) .a 3),
  (135, .uzp2 (.revAll .a) .a),
  (136, .uzp2 (.revAll .a) (.revAll .a)),
  (137, .zip1 (.dup .a 2) .a),
  (138, .trn1 (.dup .a 2) .a),
  (139, .copy (.copy .a 0 .a 2) 1 .a 0),
  (140, .zip2 .a (.dup .a 0)),
  (141, .zip1 (.ext .a .a 2) .a),
  (142, .trn1 (.zip2 .a .a) .a),
  (143, .uzp2 (.revAll .a) (.dup .a 3)),
  (144, .ext (.revAll .a) .a 1),
  (145, .ext (.revAll .a) (.rev2 .a) 1),
  (146, .uzp2 (.uzp1 .a (.ext .a .a 3)) (.ext .a .a 3)),
  (147, .ext (.revAll .a) (.revAll .a) 1),
  (148, .zip2 (.ext (.revAll .a) (.revAll .a) 3) (.revAll .a)),
  (149, .ext (.dup .a 2) (.dup .a 1) 3),
  (150, .zip1 (.rev2 (.ext .a .a 1)) (.ext .a .a 1)),
  (151, .copy (.copy .a 0 .a 2) 2 .a 1),
  (152, .zip2 (.dup .a 2) (.revAll .a)),
  (153, .trn1 (.dup .a 2) (.dup .a 1)),
  (154, .copy (.dup .a 2) 1 .a 1),
  (155, .copy .a 0 .a 2),
  (156, .zip2 .a (.revAll .a)),
  (157, .zip2 .a (.dup .a 1)),
  (158, .zip2 .a (.ext .a .a 3)),
  (159, .copy (.zip2 .a .a) 1 .a 1),
  (160, .ext (.trn1 .a .a) (.trn1 .a .a) 2),
  (161, .ext (.dup .a 2) .a 2),
  (162, .uzp1 (.dup .a 2) .a),
  (163, .copy (.zip2 .a .a) 2 .a 0),
  (164, .copy (.revAll .a) 0 .a 2),
  (165, .ext (.dup .a 2) (.dup .a 1) 2),
  (166, .copy (.dup .a 2) 2 .a 1),
  (167, .uzp2 (.dup .a 2) .a),
  (168, .ext (.dup .a 2) .a 1),
  (169, .ext (.dup .a 2) (.dup .a 1) 1),
  (170, .dup .a 2),
  (171, .zip2 (.dup .a 2) .a),
  (172, .copy (.ext .a .a 1) 0 .a 2),
  (173, .copy (.zip2 .a .a) 3 .a 1),
  (174, .zip2 .a (.dup .a 2)),
  (175, .zip2 .a .a),
  (176, .ext .a (.dup .a 0) 2),
  (177, .ext .a .a 2),
  (178, .copy (.ext .a .a 2) 3 .a 2),
  (179, .trn2 (.revAll .a) (.dup .a 3)),
  (180, .ext .a (.rev2 .a) 2),
  (181, .ext .a (.dup .a 1) 2),
  (182, .wideCopy (.ext .a .a 3) 0 .a 1),
  (183, .copy (.uzp2 .a .a) 0 .a 2),
  (184, .copy (.wideCopy .a 0 .a 1) 3 .a 0),
  (185, .ext (.rev2 .a) (.revAll .a) 3),
  (186, .ext .a (.dup .a 2) 2),
  (187, .wideDup .a 1),
  (188, .zip2 .a (.ext .a .a 1)),
  (189, .copy (.ext .a .a 2) 2 .a 3),
  (190, .ext .a (.revAll .a) 2),
  (191, .ext .a (.dup .a 3) 2),
  (192, .ext .a (.dup .a 0) 3),
  (193, .zip1 (.ext .a .a 3) .a),
  (194, .copy (.ext .a .a 3) 2 .a 0),
  (195, .zip1 (.ext .a .a 3) (.zip1 .a (.ext .a .a 3))),
  (196, .trn1 (.revAll .a) (.dup .a 0)),
  (197, .copy (.zip1 .a .a) 0 .a 3),
  (198, .ext .a .a 3),
  (199, .copy (.ext .a .a 3) 3 .a 3),
  (200, .zip1 (.revAll .a) (.dup .a 0)),
  (201, .zip1 (.revAll .a) .a),
  (202, .copy (.ext .a .a 3) 2 .a 2),
  (203, .wideCopy (.ext .a .a 3) 1 .a 1),
  (204, .trn1 (.dup .a 3) (.dup .a 0)),
  (205, .zip1 (.dup .a 3) .a),
  (206, .trn1 (.dup .a 3) .a),
  (207, .copy (.dup .a 3) 1 .a 0),
  (208, .uzp1 (.revAll .a) (.dup .a 0)),
  (209, .copy (.wideCopy .a 1 .a 0) 0 .a 3),
  (210, .uzp1 (.revAll .a) .a),
  (211, .ext .a (.rev2 .a) 3),
  (212, .copy (.revAll .a) 1 .a 1),
  (213, .ext .a (.dup .a 1) 3),
  (214, .copy (.ext .a .a 3) 1 .a 1),
  (215, .uzp2 (.ext .a .a 2) .a),
  (216, .zip2 (.rev2 .a) (.revAll .a)),
  (217, .zip1 (.revAll .a) (.dup .a 1)),
  (218, .uzp1 (.revAll .a) (.dup .a 2)),
  (219, .copy .a 0 .a 3),
  (220, .zip2 (.dup .a 3) (.revAll .a)),
  (221, .uzp1 (.revAll .a) (.revAll .a)),
  (222, .revAll (.uzp2 (.zip2 .a .a) .a)),
  (223, .trn2 (.dup .a 3) .a),
  (224, .copy (.revAll .a) 2 .a 0),
  (225, .ext (.rev2 .a) .a 2),
  (226, .copy (.uzp1 .a .a) 0 .a 3),
  (227, .zip2 (.ext .a .a 1) .a),
  (228, .revAll .a),
  (229, .copy (.revAll .a) 3 .a 1),
  (230, .trn1 (.revAll .a) (.dup .a 2)),
  (231, .copy (.revAll .a) 3 .a 3),
  (232, .copy (.revAll .a) 2 .a 2),
  (233, .ext .a (.uzp2 (.uzp1 .a .a) .a) 3),
  (234, .ext .a (.dup .a 2) 3),
  (235, .zip2 (.rev2 .a) .a),
  (236, .trn2 (.dup .a 3) (.revAll .a)),
  (237, .rev2 (.uzp2 (.zip2 .a .a) .a)),
  (238, .ext (.rev2 .a) (.revAll .a) 2),
  (239, .zip2 (.dup .a 3) .a),
  (240, .ext (.dup .a 3) (.dup .a 0) 2),
  (241, .ext (.dup .a 3) .a 2),
  (242, .uzp1 (.dup .a 3) .a),
  (243, .copy (.dup .a 3) 2 .a 0),
  (244, .copy (.revAll .a) 1 .a 3),
  (245, .ext (.trn2 .a .a) (.trn2 .a .a) 2),
  (246, .copy (.ext .a .a 3) 1 .a 3),
  (247, .uzp2 (.dup .a 3) .a),
  (248, .zip2 (.rev2 .a) (.ext .a .a 1)),
  (249, .ext .a (.revAll .a) 3),
  (250, .zip1 (.revAll .a) (.revAll .a)),
  (251, .zip1 (.revAll .a) (.dup .a 3)),
  (252, .ext (.dup .a 3) .a 1),
  (253, .trn1 (.dup .a 3) (.revAll .a)),
  (254, .zip1 (.dup .a 3) (.revAll .a)),
  (255, .dup .a 3)
]

/-- The cases of the switch of `CCSimdInterleave` for 2 lanes of a 128-bit register
(CommonC/Simd128_arm.h lines 1195-1198). -/
def interleaveTable2 : List (Nat × Case) := [
  (0, .expr .a),
  (1, .expr (.copy .a 1 .b 1)),
  (2, .expr (.copy .a 0 .b 0)),
  (3, .expr .b)
]

/-- The cases of the switch of `CCSimdInterleave` for 4 lanes of a 128-bit register
(CommonC/Simd128_arm.h lines 1212-1227). -/
def interleaveTable4 : List (Nat × Case) := [
  (0, .expr .a),
  (1, .expr (.copy .a 3 .b 3)),
  (2, .expr (.copy .a 2 .b 2)),
  (3, .wide [0, 1]),
  (4, .expr (.copy .a 1 .b 1)),
  (5, .expr (.trn2 (.rev2 .a) .b)),
  (6, .expr (.copy (.copy .b 0 .a 0) 3 .a 3)),
  (7, .expr (.copy .b 0 .a 0)),
  (8, .expr (.copy .a 0 .b 0)),
  (9, .expr (.copy (.copy .a 0 .b 0) 3 .b 3)),
  (10, .expr (.trn2 (.rev2 .b) .a)),
  (11, .expr (.copy .b 1 .a 1)),
  (12, .wide [1, 0]),
  (13, .expr (.copy .b 2 .a 2)),
  (14, .expr (.copy .b 3 .a 3)),
  (15, .expr .b)
]

/-- The cases of the switch of `CCSimdInterleave` for 8 lanes of a 128-bit register
(CommonC/Simd128_arm.h lines 1241-1265). -/
def interleaveTable8 : List (Nat × Case) := [
  (0, .expr .a),
  (1, .expr (.copy .a 7 .b 7)),
  (2, .expr (.copy .a 6 .b 6)),
  (4, .expr (.copy .a 5 .b 5)),
  (8, .expr (.copy .a 4 .b 4)),
  (16, .expr (.copy .a 3 .b 3)),
  (32, .expr (.copy .a 2 .b 2)),
  (64, .expr (.copy .a 1 .b 1)),
  (128, .expr (.copy .a 0 .b 0)),
  (255, .expr .b),
  (3, .wide [0, 0, 0, 1]),
  (12, .wide [0, 0, 1, 0]),
  (15, .wide [0, 0, 1, 1]),
  (48, .wide [0, 1, 0, 0]),
  (51, .wide [0, 1, 0, 1]),
  (60, .wide [0, 1, 1, 0]),
  (63, .wide [0, 1, 1, 1]),
  (192, .wide [1, 0, 0, 0]),
  (195, .wide [1, 0, 0, 1]),
  (204, .wide [1, 0, 1, 0]),
  (207, .wide [1, 0, 1, 1]),
  (240, .wide [1, 1, 0, 0]),
  (243, .wide [1, 1, 0, 1]),
  (252, .wide [1, 1, 1, 0])
]

/-- The cases of the switch of `CCSimdInterleave` for 16 lanes of a 128-bit register
(CommonC/Simd128_arm.h lines 1290-1562). -/
def interleaveTable16 : List (Nat × Case) := [
  (0, .expr .a),
  (1, .expr (.copy .a 15 .b 15)),
  (2, .expr (.copy .a 14 .b 14)),
  (4, .expr (.copy .a 13 .b 13)),
  (8, .expr (.copy .a 12 .b 12)),
  (16, .expr (.copy .a 11 .b 11)),
  (32, .expr (.copy .a 10 .b 10)),
  (64, .expr (.copy .a 9 .b 9)),
  (128, .expr (.copy .a 8 .b 8)),
  (256, .expr (.copy .a 7 .b 7)),
  (512, .expr (.copy .a 6 .b 6)),
  (1024, .expr (.copy .a 5 .b 5)),
  (2048, .expr (.copy .a 4 .b 4)),
  (4096, .expr (.copy .a 3 .b 3)),
  (8192, .expr (.copy .a 2 .b 2)),
  (16384, .expr (.copy .a 1 .b 1)),
  (32768, .expr (.copy .a 0 .b 0)),
  (65535, .expr .b),
  (3, .wide [0, 0, 0, 0, 0, 0, 0, 1]),
  (12, .wide [0, 0, 0, 0, 0, 0, 1, 0]),
  (15, .wide [0, 0, 0, 0, 0, 0, 1, 1]),
  (48, .wide [0, 0, 0, 0, 0, 1, 0, 0]),
  (51, .wide [0, 0, 0, 0, 0, 1, 0, 1]),
  (60, .wide [0, 0, 0, 0, 0, 1, 1, 0]),
  (63, .wide [0, 0, 0, 0, 0, 1, 1, 1]),
  (192, .wide [0, 0, 0, 0, 1, 0, 0, 0]),
  (195, .wide [0, 0, 0, 0, 1, 0, 0, 1]),
  (204, .wide [0, 0, 0, 0, 1, 0, 1, 0]),
  (207, .wide [0, 0, 0, 0, 1, 0, 1, 1]),
  (240, .wide [0, 0, 0, 0, 1, 1, 0, 0]),
  (243, .wide [0, 0, 0, 0, 1, 1, 0, 1]),
  (252, .wide [0, 0, 0, 0, 1, 1, 1, 0]),
  (255, .wide [0, 0, 0, 0, 1, 1, 1, 1]),
  (768, .wide [0, 0, 0, 1, 0, 0, 0, 0]),
  (771, .wide [0, 0, 0, 1, 0, 0, 0, 1]),
  (780, .wide [0, 0, 0, 1, 0, 0, 1, 0]),
  (783, .wide [0, 0, 0, 1, 0, 0, 1, 1]),
  (816, .wide [0, 0, 0, 1, 0, 1, 0, 0]),
  (819, .wide [0, 0, 0, 1, 0, 1, 0, 1]),
  (828, .wide [0, 0, 0, 1, 0, 1, 1, 0]),
  (831, .wide [0, 0, 0, 1, 0, 1, 1, 1]),
  (960, .wide [0, 0, 0, 1, 1, 0, 0, 0]),
  (963, .wide [0, 0, 0, 1, 1, 0, 0, 1]),
  (972, .wide [0, 0, 0, 1, 1, 0, 1, 0]),
  (975, .wide [0, 0, 0, 1, 1, 0, 1, 1]),
  (1008, .wide [0, 0, 0, 1, 1, 1, 0, 0]),
  (1011, .wide [0, 0, 0, 1, 1, 1, 0, 1]),
  (1020, .wide [0, 0, 0, 1, 1, 1, 1, 0]),
  (1023, .wide [0, 0, 0, 1, 1, 1, 1, 1]),
  (3072, .wide [0, 0, 1, 0, 0, 0, 0, 0]),
  (3075, .wide [0, 0, 1, 0, 0, 0, 0, 1]),
  (3084, .wide [0, 0, 1, 0, 0, 0, 1, 0]),
  (3087, .wide [0, 0, 1, 0, 0, 0, 1, 1]),
  (3120, .wide [0, 0, 1, 0, 0, 1, 0, 0]),
  (3123, .wide [0, 0, 1, 0, 0, 1, 0, 1]),
  (3132, .wide [0, 0, 1, 0, 0, 1, 1, 0]),
  (3135, .wide [0, 0, 1, 0, 0, 1, 1, 1]),
  (3264, .wide [0, 0, 1, 0, 1, 0, 0, 0]),
  (3267, .wide [0, 0, 1, 0, 1, 0, 0, 1]),
  (3276, .wide [0, 0, 1, 0, 1, 0, 1, 0]),
  (3279, .wide [0, 0, 1, 0, 1, 0, 1, 1]),
  (3312, .wide [0, 0, 1, 0, 1, 1, 0, 0]),
  (3315, .wide [0, 0, 1, 0, 1, 1, 0, 1]),
  (3324, .wide [0, 0, 1, 0, 1, 1, 1, 0]),
  (3327, .wide [0, 0, 1, 0, 1, 1, 1, 1]),
  (3840, .wide [0, 0, 1, 1, 0, 0, 0, 0]),
  (3843, .wide [0, 0, 1, 1, 0, 0, 0, 1]),
  (3852, .wide [0, 0, 1, 1, 0, 0, 1, 0]),
  (3855, .wide [0, 0, 1, 1, 0, 0, 1, 1]),
  (3888, .wide [0, 0, 1, 1, 0, 1, 0, 0]),
  (3891, .wide [0, 0, 1, 1, 0, 1, 0, 1]),
  (3900, .wide [0, 0, 1, 1, 0, 1, 1, 0]),
  (3903, .wide [0, 0, 1, 1, 0, 1, 1, 1]),
  (4032, .wide [0, 0, 1, 1, 1, 0, 0, 0]),
  (4035, .wide [0, 0, 1, 1, 1, 0, 0, 1]),
  (4044, .wide [0, 0, 1, 1, 1, 0, 1, 0]),
  (4047, .wide [0, 0, 1, 1, 1, 0, 1, 1]),
  (4080, .wide [0, 0, 1, 1, 1, 1, 0, 0]),
  (4083, .wide [0, 0, 1, 1, 1, 1, 0, 1]),
  (4092, .wide [0, 0, 1, 1, 1, 1, 1, 0]),
  (4095, .wide [0, 0, 1, 1, 1, 1, 1, 1]),
  (12288, .wide [0, 1, 0, 0, 0, 0, 0, 0]),
  (12291, .wide [0, 1, 0, 0, 0, 0, 0, 1]),
  (12300, .wide [0, 1, 0, 0, 0, 0, 1, 0]),
  (12303, .wide [0, 1, 0, 0, 0, 0, 1, 1]),
  (12336, .wide [0, 1, 0, 0, 0, 1, 0, 0]),
  (12339, .wide [0, 1, 0, 0, 0, 1, 0, 1]),
  (12348, .wide [0, 1, 0, 0, 0, 1, 1, 0]),
  (12351, .wide [0, 1, 0, 0, 0, 1, 1, 1]),
  (12480, .wide [0, 1, 0, 0, 1, 0, 0, 0]),
  (12483, .wide [0, 1, 0, 0, 1, 0, 0, 1]),
  (12492, .wide [0, 1, 0, 0, 1, 0, 1, 0]),
  (12495, .wide [0, 1, 0, 0, 1, 0, 1, 1]),
  (12528, .wide [0, 1, 0, 0, 1, 1, 0, 0]),
  (12531, .wide [0, 1, 0, 0, 1, 1, 0, 1]),
  (12540, .wide [0, 1, 0, 0, 1, 1, 1, 0]),
  (12543, .wide [0, 1, 0, 0, 1, 1, 1, 1]),
  (13056, .wide [0, 1, 0, 1, 0, 0, 0, 0]),
  (13059, .wide [0, 1, 0, 1, 0, 0, 0, 1]),
  (13068, .wide [0, 1, 0, 1, 0, 0, 1, 0]),
  (13071, .wide [0, 1, 0, 1, 0, 0, 1, 1]),
  (13104, .wide [0, 1, 0, 1, 0, 1, 0, 0]),
  (13107, .wide [0, 1, 0, 1, 0, 1, 0, 1]),
  (13116, .wide [0, 1, 0, 1, 0, 1, 1, 0]),
  (13119, .wide [0, 1, 0, 1, 0, 1, 1, 1]),
  (13248, .wide [0, 1, 0, 1, 1, 0, 0, 0]),
  (13251, .wide [0, 1, 0, 1, 1, 0, 0, 1]),
  (13260, .wide [0, 1, 0, 1, 1, 0, 1, 0]),
  (13263, .wide [0, 1, 0, 1, 1, 0, 1, 1]),
  (13296, .wide [0, 1, 0, 1, 1, 1, 0, 0]),
  (13299, .wide [0, 1, 0, 1, 1, 1, 0, 1]),
  (13308, .wide [0, 1, 0, 1, 1, 1, 1, 0]),
  (13311, .wide [0, 1, 0, 1, 1, 1, 1, 1]),
  (15360, .wide [0, 1, 1, 0, 0, 0, 0, 0]),
  (15363, .wide [0, 1, 1, 0, 0, 0, 0, 1]),
  (15372, .wide [0, 1, 1, 0, 0, 0, 1, 0]),
  (15375, .wide [0, 1, 1, 0, 0, 0, 1, 1]),
  (15408, .wide [0, 1, 1, 0, 0, 1, 0, 0]),
  (15411, .wide [0, 1, 1, 0, 0, 1, 0, 1]),
  (15420, .wide [0, 1, 1, 0, 0, 1, 1, 0]),
  (15423, .wide [0, 1, 1, 0, 0, 1, 1, 1]),
  (15552, .wide [0, 1, 1, 0, 1, 0, 0, 0]),
  (15555, .wide [0, 1, 1, 0, 1, 0, 0, 1]),
  (15564, .wide [0, 1, 1, 0, 1, 0, 1, 0]),
  (15567, .wide [0, 1, 1, 0, 1, 0, 1, 1]),
  (15600, .wide [0, 1, 1, 0, 1, 1, 0, 0]),
  (15603, .wide [0, 1, 1, 0, 1, 1, 0, 1]),
  (15612, .wide [0, 1, 1, 0, 1, 1, 1, 0]),
  (15615, .wide [0, 1, 1, 0, 1, 1, 1, 1]),
  (16128, .wide [0, 1, 1, 1, 0, 0, 0, 0]),
  (16131, .wide [0, 1, 1, 1, 0, 0, 0, 1]),
  (16140, .wide [0, 1, 1, 1, 0, 0, 1, 0]),
  (16143, .wide [0, 1, 1, 1, 0, 0, 1, 1]),
  (16176, .wide [0, 1, 1, 1, 0, 1, 0, 0]),
  (16179, .wide [0, 1, 1, 1, 0, 1, 0, 1]),
  (16188, .wide [0, 1, 1, 1, 0, 1, 1, 0]),
  (16191, .wide [0, 1, 1, 1, 0, 1, 1, 1]),
  (16320, .wide [0, 1, 1, 1, 1, 0, 0, 0]),
  (16323, .wide [0, 1, 1, 1, 1, 0, 0, 1]),
  (16332, .wide [0, 1, 1, 1, 1, 0, 1, 0]),
  (16335, .wide [0, 1, 1, 1, 1, 0, 1, 1]),
  (16368, .wide [0, 1, 1, 1, 1, 1, 0, 0]),
  (16371, .wide [0, 1, 1, 1, 1, 1, 0, 1]),
  (16380, .wide [0, 1, 1, 1, 1, 1, 1, 0]),
  (16383, .wide [0, 1, 1, 1, 1, 1, 1, 1]),
  (49152, .wide [1, 0, 0, 0, 0, 0, 0, 0]),
  (49155, .wide [1, 0, 0, 0, 0, 0, 0, 1]),
  (49164, .wide [1, 0, 0, 0, 0, 0, 1, 0]),
  (49167, .wide [1, 0, 0, 0, 0, 0, 1, 1]),
  (49200, .wide [1, 0, 0, 0, 0, 1, 0, 0]),
  (49203, .wide [1, 0, 0, 0, 0, 1, 0, 1]),
  (49212, .wide [1, 0, 0, 0, 0, 1, 1, 0]),
  (49215, .wide [1, 0, 0, 0, 0, 1, 1, 1]),
  (49344, .wide [1, 0, 0, 0, 1, 0, 0, 0]),
  (49347, .wide [1, 0, 0, 0, 1, 0, 0, 1]),
  (49356, .wide [1, 0, 0, 0, 1, 0, 1, 0]),
  (49359, .wide [1, 0, 0, 0, 1, 0, 1, 1]),
  (49392, .wide [1, 0, 0, 0, 1, 1, 0, 0]),
  (49395, .wide [1, 0, 0, 0, 1, 1, 0, 1]),
  (49404, .wide [1, 0, 0, 0, 1, 1, 1, 0]),
  (49407, .wide [1, 0, 0, 0, 1, 1, 1, 1]),
  (49920, .wide [1, 0, 0, 1, 0, 0, 0, 0]),
  (49923, .wide [1, 0, 0, 1, 0, 0, 0, 1]),
  (49932, .wide [1, 0, 0, 1, 0, 0, 1, 0]),
  (49935, .wide [1, 0, 0, 1, 0, 0, 1, 1]),
  (49968, .wide [1, 0, 0, 1, 0, 1, 0, 0]),
  (49971, .wide [1, 0, 0, 1, 0, 1, 0, 1]),
  (49980, .wide [1, 0, 0, 1, 0, 1, 1, 0]),
  (49983, .wide [1, 0, 0, 1, 0, 1, 1, 1]),
  (50112, .wide [1, 0, 0, 1, 1, 0, 0, 0]),
  (50115, .wide [1, 0, 0, 1, 1, 0, 0, 1]),
  (50124, .wide [1, 0, 0, 1, 1, 0, 1, 0]),
  (50127, .wide [1, 0, 0, 1, 1, 0, 1, 1]),
  (50160, .wide [1, 0, 0, 1, 1, 1, 0, 0]),
  (50163, .wide [1, 0, 0, 1, 1, 1, 0, 1]),
  (50172, .wide [1, 0, 0, 1, 1, 1, 1, 0]),
  (50175, .wide [1, 0, 0, 1, 1, 1, 1, 1]),
  (52224, .wide [1, 0, 1, 0, 0, 0, 0, 0]),
  (52227, .wide [1, 0, 1, 0, 0, 0, 0, 1]),
  (52236, .wide [1, 0, 1, 0, 0, 0, 1, 0]),
  (52239, .wide [1, 0, 1, 0, 0, 0, 1, 1]),
  (52272, .wide [1, 0, 1, 0, 0, 1, 0, 0]),
  (52275, .wide [1, 0, 1, 0, 0, 1, 0, 1]),
  (52284, .wide [1, 0, 1, 0, 0, 1, 1, 0]),
  (52287, .wide [1, 0, 1, 0, 0, 1, 1, 1]),
  (52416, .wide [1, 0, 1, 0, 1, 0, 0, 0]),
  (52419, .wide [1, 0, 1, 0, 1, 0, 0, 1]),
  (52428, .wide [1, 0, 1, 0, 1, 0, 1, 0]),
  (52431, .wide [1, 0, 1, 0, 1, 0, 1, 1]),
  (52464, .wide [1, 0, 1, 0, 1, 1, 0, 0]),
  (52467, .wide [1, 0, 1, 0, 1, 1, 0, 1]),
  (52476, .wide [1, 0, 1, 0, 1, 1, 1, 0]),
  (52479, .wide [1, 0, 1, 0, 1, 1, 1, 1]),
  (52992, .wide [1, 0, 1, 1, 0, 0, 0, 0]),
  (52995, .wide [1, 0, 1, 1, 0, 0, 0, 1]),
  (53004, .wide [1, 0, 1, 1, 0, 0, 1, 0]),
  (53007, .wide [1, 0, 1, 1, 0, 0, 1, 1]),
  (53040, .wide [1, 0, 1, 1, 0, 1, 0, 0]),
  (53043, .wide [1, 0, 1, 1, 0, 1, 0, 1]),
  (53052, .wide [1, 0, 1, 1, 0, 1, 1, 0]),
  (53055, .wide [1, 0, 1, 1, 0, 1, 1, 1]),
  (53184, .wide [1, 0, 1, 1, 1, 0, 0, 0]),
  (53187, .wide [1, 0, 1, 1, 1, 0, 0, 1]),
  (53196, .wide [1, 0, 1, 1, 1, 0, 1, 0]),
  (53199, .wide [1, 0, 1, 1, 1, 0, 1, 1]),
  (53232, .wide [1, 0, 1, 1, 1, 1, 0, 0]),
  (53235, .wide [1, 0, 1, 1, 1, 1, 0, 1]),
  (53244, .wide [1, 0, 1, 1, 1, 1, 1, 0]),
  (53247, .wide [1, 0, 1, 1, 1, 1, 1, 1]),
  (61440, .wide [1, 1, 0, 0, 0, 0, 0, 0]),
  (61443, .wide [1, 1, 0, 0, 0, 0, 0, 1]),
  (61452, .wide [1, 1, 0, 0, 0, 0, 1, 0]),
  (61455, .wide [1, 1, 0, 0, 0, 0, 1, 1]),
  (61488, .wide [1, 1, 0, 0, 0, 1, 0, 0]),
  (61491, .wide [1, 1, 0, 0, 0, 1, 0, 1]),
  (61500, .wide [1, 1, 0, 0, 0, 1, 1, 0]),
  (61503, .wide [1, 1, 0, 0, 0, 1, 1, 1]),
  (61632, .wide [1, 1, 0, 0, 1, 0, 0, 0]),
  (61635, .wide [1, 1, 0, 0, 1, 0, 0, 1]),
  (61644, .wide [1, 1, 0, 0, 1, 0, 1, 0]),
  (61647, .wide [1, 1, 0, 0, 1, 0, 1, 1]),
  (61680, .wide [1, 1, 0, 0, 1, 1, 0, 0]),
  (61683, .wide [1, 1, 0, 0, 1, 1, 0, 1]),
  (61692, .wide [1, 1, 0, 0, 1, 1, 1, 0]),
  (61695, .wide [1, 1, 0, 0, 1, 1, 1, 1]),
  (62208, .wide [1, 1, 0, 1, 0, 0, 0, 0]),
  (62211, .wide [1, 1, 0, 1, 0, 0, 0, 1]),
  (62220, .wide [1, 1, 0, 1, 0, 0, 1, 0]),
  (62223, .wide [1, 1, 0, 1, 0, 0, 1, 1]),
  (62256, .wide [1, 1, 0, 1, 0, 1, 0, 0]),
  (62259, .wide [1, 1, 0, 1, 0, 1, 0, 1]),
  (62268, .wide [1, 1, 0, 1, 0, 1, 1, 0]),
  (62271, .wide [1, 1, 0, 1, 0, 1, 1, 1]),
  (62400, .wide [1, 1, 0, 1, 1, 0, 0, 0]),
  (62403, .wide [1, 1, 0, 1, 1, 0, 0, 1]),
  (62412, .wide [1, 1, 0, 1, 1, 0, 1, 0]),
  (62415, .wide [1, 1, 0, 1, 1, 0, 1, 1]),
  (62448, .wide [1, 1, 0, 1, 1, 1, 0, 0]),
  (62451, .wide [1, 1, 0, 1, 1, 1, 0, 1]),
  (62460, .wide [1, 1, 0, 1, 1, 1, 1, 0]),
  (62463, .wide [1, 1, 0, 1, 1, 1, 1, 1]),
  (64512, .wide [1, 1, 1, 0, 0, 0, 0, 0]),
  (64515, .wide [1, 1, 1, 0, 0, 0, 0, 1]),
  (64524, .wide [1, 1, 1, 0, 0, 0, 1, 0]),
  (64527, .wide [1, 1, 1, 0, 0, 0, 1, 1]),
  (64560, .wide [1, 1, 1, 0, 0, 1, 0, 0]),
  (64563, .wide [1, 1, 1, 0, 0, 1, 0, 1]),
  (64572, .wide [1, 1, 1, 0, 0, 1, 1, 0]),
  (64575, .wide [1, 1, 1, 0, 0, 1, 1, 1]),
  (64704, .wide [1, 1, 1, 0, 1, 0, 0, 0]),
  (64707, .wide [1, 1, 1, 0, 1, 0, 0, 1]),
  (64716, .wide [1, 1, 1, 0, 1, 0, 1, 0]),
  (64719, .wide [1, 1, 1, 0, 1, 0, 1, 1]),
  (64752, .wide [1, 1, 1, 0, 1, 1, 0, 0]),
  (64755, .wide [1, 1, 1, 0, 1, 1, 0, 1]),
  (64764, .wide [1, 1, 1, 0, 1, 1, 1, 0]),
  (64767, .wide [1, 1, 1, 0, 1, 1, 1, 1]),
  (65280, .wide [1, 1, 1, 1, 0, 0, 0, 0]),
  (65283, .wide [1, 1, 1, 1, 0, 0, 0, 1]),
  (65292, .wide [1, 1, 1, 1, 0, 0, 1, 0]),
  (65295, .wide [1, 1, 1, 1, 0, 0, 1, 1]),
  (65328, .wide [1, 1, 1, 1, 0, 1, 0, 0]),
  (65331, .wide [1, 1, 1, 1, 0, 1, 0, 1]),
  (65340, .wide [1, 1, 1, 1, 0, 1, 1, 0]),
  (65343, .wide [1, 1, 1, 1, 0, 1, 1, 1]),
  (65472, .wide [1, 1, 1, 1, 1, 0, 0, 0]),
  (65475, .wide [1, 1, 1, 1, 1, 0, 0, 1]),
  (65484, .wide [1, 1, 1, 1, 1, 0, 1, 0]),
  (65487, .wide [1, 1, 1, 1, 1, 0, 1, 1]),
  (65520, .wide [1, 1, 1, 1, 1, 1, 0, 0]),
  (65523, .wide [1, 1, 1, 1, 1, 1, 0, 1]),
  (65532, .wide [1, 1, 1, 1, 1, 1, 1, 0])
]

/-- The cases of the switch of `CCSimdMerge` for 2 lanes of a 128-bit register
(CommonC/Simd128_arm.h lines 1597-1605), the key being the value of `CC_SIMD_MERGE_MASK`. -/
def mergeTable2 : List (Nat × E) := [
  (16, .zip1 .a .b),
  (17, .zip2 (.dup .a 0) .b),
  (48, .ext .a .b 1),
  (49, .zip2 .a .b),
  (512, .zip1 .b .a),
  (513, .zip2 (.dup .b 0) .a),
  (544, .ext .b .a 1),
  (545, .zip2 .b .a)
]

/-- The cases of the switch of `CCSimdMerge` for 4 lanes of a 128-bit register
(CommonC/Simd128_arm.h lines 1622-1786), the key being the value of `CC_SIMD_MERGE_MASK`. -/
def mergeTable4 : List (Nat × E) := [
  (69203, .wideZip2 .a .b),
  (609347, .wideZip2 .b .a),
  (541697, .wideZip1 .b .a),
  (1553, .wideZip1 .a .b),
  (16433, .zip1 .a .b),
  (524833, .zip1 .b .a),
  (84083, .zip2 .a .b),
  (592483, .zip2 .b .a),
  (2578, .uzp1 .a .b),
  (542722, .uzp1 .b .a),
  (36403, .uzp2 .a .b),
  (576547, .uzp2 .b .a),
  (16466, .trn1 .a .b),
  (524866, .trn1 .b .a),
  (50291, .trn2 .a .b),
  (558691, .trn2 .b .a),
  (34928, .ext .a .b 1),
  (576096, .ext .b .a 1),
  (69137, .ext .a .b 2),
  (609281, .ext .b .a 2),
  (115250, .ext .a .b 3),
  (622626, .ext .b .a 3),
  (558592, .revAll (.zip1 .a .b)),
  (50192, .revAll (.zip1 .b .a)),
  (626242, .revAll (.zip2 .a .b)),
  (117842, .revAll (.zip2 .b .a)),
  (606272, .revAll (.uzp1 .a .b)),
  (66128, .revAll (.uzp1 .b .a)),
  (640097, .revAll (.uzp2 .a .b)),
  (99953, .revAll (.uzp2 .b .a)),
  (592384, .revAll (.trn1 .a .b)),
  (83984, .revAll (.trn1 .b .a)),
  (626209, .revAll (.trn2 .a .b)),
  (117809, .revAll (.trn2 .b .a)),
  (527425, .revAll (.ext .a .b 1)),
  (67075, .rev2 (.ext .a .b 1)),
  (20049, .revAll (.ext .b .a 1)),
  (607251, .rev2 (.ext .b .a 1)),
  (573538, .revAll (.ext .a .b 2)),
  (100912, .rev2 (.ext .a .b 2)),
  (33394, .revAll (.ext .b .a 2)),
  (641056, .rev2 (.ext .b .a 2)),
  (607747, .revAll (.ext .a .b 3)),
  (527953, .rev2 (.ext .a .b 3)),
  (66579, .revAll (.ext .b .a 3)),
  (19521, .rev2 (.ext .b .a 3)),
  (114769, .zip1 (.revAll .a) .b),
  (49169, .zip1 (.rev2 .a) .b),
  (19506, .zip1 .a (.revAll .b)),
  (17456, .zip1 .a (.rev2 .b)),
  (52242, .zip1 (.rev2 .a) (.revAll .b)),
  (115792, .zip1 (.revAll .a) (.rev2 .b)),
  (527906, .zip1 .b (.revAll .a)),
  (525856, .zip1 .b (.rev2 .a)),
  (623169, .zip1 (.revAll .b) .a),
  (557569, .zip1 (.rev2 .b) .a),
  (560642, .zip1 (.rev2 .b) (.revAll .a)),
  (624192, .zip1 (.revAll .b) (.rev2 .a)),
  (51219, .zip2 (.revAll .a) .b),
  (116819, .zip2 (.rev2 .a) .b),
  (83056, .zip2 .a (.revAll .b)),
  (85106, .zip2 .a (.rev2 .b)),
  (591456, .zip2 .b (.revAll .a)),
  (593506, .zip2 .b (.rev2 .a)),
  (559619, .zip2 (.revAll .b) .a),
  (625219, .zip2 (.rev2 .b) .a),
  (99858, .uzp1 (.revAll .a) .b),
  (36370, .uzp1 (.rev2 .a) .b),
  (2673, .uzp1 .a (.revAll .b)),
  (2611, .uzp1 .a (.rev2 .b)),
  (36465, .uzp1 (.rev2 .a) (.revAll .b)),
  (99891, .uzp1 (.revAll .a) (.rev2 .b)),
  (542817, .uzp1 .b (.revAll .a)),
  (542755, .uzp1 .b (.rev2 .a)),
  (640002, .uzp1 (.revAll .b) .a),
  (576514, .uzp1 (.rev2 .b) .a),
  (576609, .uzp1 (.rev2 .b) (.revAll .a)),
  (640035, .uzp1 (.revAll .b) (.rev2 .a)),
  (66099, .uzp2 (.revAll .a) .b),
  (36432, .uzp2 .a (.revAll .b)),
  (2640, .uzp2 (.rev2 .a) (.revAll .b)),
  (66066, .uzp2 (.revAll .a) (.rev2 .b)),
  (576576, .uzp2 .b (.revAll .a)),
  (606243, .uzp2 (.revAll .b) .a),
  (542784, .uzp2 (.rev2 .b) (.revAll .a)),
  (606210, .uzp2 (.revAll .b) (.rev2 .a)),
  (114738, .trn1 (.revAll .a) .b),
  (49266, .trn1 (.rev2 .a) .b),
  (19537, .trn1 .a (.revAll .b)),
  (17491, .trn1 .a (.rev2 .b)),
  (52337, .trn1 (.rev2 .a) (.revAll .b)),
  (115763, .trn1 (.revAll .a) (.rev2 .b)),
  (527937, .trn1 .b (.revAll .a)),
  (525891, .trn1 .b (.rev2 .a)),
  (623138, .trn1 (.revAll .b) .a),
  (557666, .trn1 (.rev2 .b) .a),
  (560737, .trn1 (.rev2 .b) (.revAll .a)),
  (624163, .trn1 (.revAll .b) (.rev2 .a)),
  (82963, .trn2 (.revAll .a) .b),
  (51312, .trn2 .a (.revAll .b)),
  (18512, .trn2 (.rev2 .a) (.revAll .b)),
  (81938, .trn2 (.revAll .a) (.rev2 .b)),
  (559712, .trn2 .b (.revAll .a)),
  (591363, .trn2 (.revAll .b) .a),
  (526912, .trn2 (.rev2 .b) (.revAll .a)),
  (590338, .trn2 (.revAll .b) (.rev2 .a)),
  (66576, .ext (.revAll .a) .b 1),
  (3152, .ext (.rev2 .a) .b 1),
  (34931, .ext .a (.revAll .b) 1),
  (34929, .ext .a (.rev2 .b) 1),
  (3155, .ext (.rev2 .a) (.revAll .b) 1),
  (66577, .ext (.revAll .a) (.rev2 .b) 1),
  (3153, .ext (.rev2 .a) (.rev2 .b) 1),
  (576099, .ext .b (.revAll .a) 1),
  (576097, .ext .b (.rev2 .a) 1),
  (607744, .ext (.revAll .b) .a 1),
  (544320, .ext (.rev2 .b) .a 1),
  (544323, .ext (.rev2 .b) (.revAll .a) 1),
  (607745, .ext (.revAll .b) (.rev2 .a) 1),
  (544321, .ext (.rev2 .b) (.rev2 .a) 1),
  (33297, .ext (.revAll .a) .b 2),
  (100881, .ext (.rev2 .a) .b 2),
  (69234, .ext .a (.revAll .b) 2),
  (69168, .ext .a (.rev2 .b) 2),
  (100978, .ext (.rev2 .a) (.revAll .b) 2),
  (33328, .ext (.revAll .a) (.rev2 .b) 2),
  (609378, .ext .b (.revAll .a) 2),
  (609312, .ext .b (.rev2 .a) 2),
  (573441, .ext (.revAll .b) .a 2),
  (641025, .ext (.rev2 .b) .a 2),
  (641122, .ext (.rev2 .b) (.revAll .a) 2),
  (573472, .ext (.revAll .b) (.rev2 .a) 2),
  (16946, .ext (.revAll .a) .b 3),
  (82482, .ext (.rev2 .a) .b 3),
  (118353, .ext .a (.revAll .b) 3),
  (116243, .ext .a (.rev2 .b) 3),
  (85585, .ext (.rev2 .a) (.revAll .b) 3),
  (17939, .ext (.revAll .a) (.rev2 .b) 3),
  (83475, .ext (.rev2 .a) (.rev2 .b) 3),
  (625729, .ext .b (.revAll .a) 3),
  (623619, .ext .b (.rev2 .a) 3),
  (524322, .ext (.revAll .b) .a 3),
  (589858, .ext (.rev2 .b) .a 3),
  (592961, .ext (.rev2 .b) (.revAll .a) 3),
  (525315, .ext (.revAll .b) (.rev2 .a) 3),
  (590851, .ext (.rev2 .b) (.rev2 .a) 3)
]

end Q

namespace D

/-- The cases of the switch of `CCSimdSwizzle` for 2 lanes of a 64-bit register
(CommonC/Simd64_arm.h lines 618-621). -/
def swizzleTable2 : List (Nat × E) := [
  (0, .dup .a 0),
  (1, .a),
  (2, .revAll .a),
  (3, .dup .a 1)
]

/-- The cases of the switch of `CCSimdSwizzle` for 4 lanes of a 64-bit register
(CommonC/Simd64_arm.h lines 635-890). -/
def swizzleTable4 : List (Nat × E) := [
  (0, .dup .a 0),
  (1, .zip1 (.dup .a 0) .a),
  (2, .uzp1 (.dup .a 0) .a),
  (3, .ext (.dup .a 0) (.dup .a 3) 1),
  (4, .zip1 .a (.dup .a 0)),
  (5, .zip1 .a .a),
  (6, .ext (.dup .a 0) .a 3),
  (7, .uzp2 (.dup .a 0) .a),
  (8, .trn1 .a (.dup .a 0)),
  (9, .trn1 .a (.zip1 .a .a)),
  (10, .trn1 .a .a),
  (11, .copy .a 1 .a 0),
  (12, .copy (.dup .a 0) 2 .a 3),
  (13, .copy (.zip1 .a .a) 2 .a 3),
  (14, .copy (.rev2 .a) 0 .a 0),
  (15, .ext (.dup .a 0) (.dup .a 3) 2),
  (16, .zip2 (.dup .a 0) (.revAll .a)),
  (17, .wideDup .a 0),
  (18, .copy (.uzp1 .a .a) 1 .a 1),
  (19, .copy .a 2 .a 0),
  (20, .zip1 .a (.rev2 .a)),
  (21, .zip1 .a (.dup .a 1)),
  (22, .zip1 .a (.ext .a .a 1)),
  (23, .copy .a 2 .a 1),
  (24, .copy .a 3 .a 0),
  (25, .copy .a 3 .a 1),
  (26, .copy .a 3 .a 2),
  (27, .a),
  (28, .wideCopy (.ext .a .a 1) 0 .a 0),
  (29, .copy (.wideCopy .a 1 .a 0) 2 .a 3),
  (30, .wideCopy (.rev2 .a) 0 .a 0),
  (31, .copy .a 2 .a 3),
  (32, .uzp1 .a (.dup .a 0)),
  (33, .copy (.uzp1 .a .a) 3 .a 1),
  (34, .uzp1 .a .a),
  (35, .zip2 (.dup .a 0) .a),
  (36, .copy (.revAll .a) 0 .a 0),
  (37, .uzp1 .a (.dup .a 1)),
  (38, .zip1 .a (.dup .a 2)),
  (39, .uzp2 (.rev2 .a) .a),
  (40, .uzp1 .a (.ext .a .a 2)),
  (41, .copy (.copy .a 1 .a 2) 3 .a 1),
  (42, .uzp1 .a (.dup .a 2)),
  (43, .copy .a 1 .a 2),
  (44, .copy (.ext .a .a 1) 0 .a 0),
  (45, .uzp1 .a (.revAll .a)),
  (46, .copy (.uzp1 .a .a) 2 .a 3),
  (47, .uzp1 .a (.dup .a 3)),
  (48, .copy (.dup .a 0) 1 .a 3),
  (49, .trn1 (.dup .a 0) (.revAll .a)),
  (50, .zip1 (.dup .a 0) (.revAll .a)),
  (51, .trn1 (.dup .a 0) (.dup .a 3)),
  (52, .zip1 .a (.ext .a .a 3)),
  (53, .copy (.zip1 .a .a) 1 .a 3),
  (54, .zip1 .a (.revAll .a)),
  (55, .zip1 .a (.dup .a 3)),
  (56, .ext (.rev2 .a) .a 1),
  (57, .ext (.revAll .a) (.revAll .a) 3),
  (58, .copy (.trn1 .a .a) 1 .a 3),
  (59, .copy .a 1 .a 3),
  (60, .zip1 (.zip1 .a (.ext .a .a 3)) (.ext .a .a 3)),
  (61, .uzp1 (.uzp1 .a (.ext .a .a 3)) (.ext .a .a 3)),
  (62, .zip2 (.ext (.rev2 .a) (.rev2 .a) 3) (.rev2 .a)),
  (63, .ext (.dup .a 0) (.dup .a 3) 3),
  (64, .zip2 (.revAll .a) (.dup .a 0)),
  (65, .zip1 (.rev2 .a) .a),
  (66, .copy (.rev2 .a) 2 .a 0),
  (67, .ext (.zip1 .a (.ext .a .a 3)) (.zip1 .a (.ext .a .a 3)) 2),
  (68, .ext (.revAll .a) (.rev2 .a) 2),
  (69, .zip1 (.dup .a 1) .a),
  (70, .ext (.dup .a 1) .a 3),
  (71, .copy (.uzp2 .a .a) 1 .a 0),
  (72, .rev2 (.uzp1 (.zip1 .a .a) .a)),
  (73, .zip1 (.ext .a .a 1) .a),
  (74, .copy (.rev2 .a) 2 .a 2),
  (75, .wideCopy (.rev2 .a) 1 .a 1),
  (76, .trn2 .a (.dup .a 0)),
  (77, .copy (.rev2 .a) 3 .a 1),
  (78, .ext (.revAll .a) (.revAll .a) 2),
  (79, .copy (.rev2 .a) 3 .a 3),
  (80, .zip2 (.revAll .a) (.revAll .a)),
  (81, .ext (.dup .a 1) .a 2),
  (82, .uzp1 (.dup .a 1) .a),
  (83, .copy (.trn2 .a .a) 2 .a 0),
  (84, .ext (.dup .a 1) .a 1),
  (85, .dup .a 1),
  (86, .ext (.dup .a 1) (.dup .a 2) 1),
  (87, .uzp2 (.dup .a 1) .a),
  (88, .copy (.copy .a 0 .a 1) 3 .a 0),
  (89, .copy (.dup .a 1) 2 .a 2),
  (90, .ext (.dup .a 1) (.dup .a 2) 2),
  (91, .copy .a 0 .a 1),
  (92, .copy (.ext .a .a 1) 1 .a 1),
  (93, .trn2 .a (.dup .a 1)),
  (94, .copy (.rev2 .a) 1 .a 1),
  (95, .trn2 .a .a),
  (96, .copy (.ext .a .a 1) 2 .a 0),
  (97, .wideCopy (.ext .a .a 1) 1 .a 0),
  (98, .zip2 (.revAll .a) (.dup .a 2)),
  (99, .zip2 (.revAll .a) .a),
  (100, .trn2 (.dup .a 1) (.revAll .a)),
  (101, .copy (.dup .a 1) 1 .a 2),
  (102, .trn1 (.dup .a 1) (.dup .a 2)),
  (103, .zip2 (.dup .a 1) .a),
  (104, .copy (.ext .a .a 1) 2 .a 2),
  (105, .zip1 (.ext .a .a 1) (.rev2 (.ext .a .a 1))),
  (106, .ext (.dup .a 1) (.dup .a 2) 3),
  (107, .zip2 (.ext .a .a 3) .a),
  (108, .ext .a .a 1),
  (109, .ext .a (.rev2 .a) 1),
  (110, .ext .a (.dup .a 2) 1),
  (111, .ext .a (.dup .a 3) 1),
  (112, .uzp2 .a (.dup .a 0)),
  (113, .copy (.ext .a .a 2) 0 .a 1),
  (114, .uzp1 (.rev2 .a) .a),
  (115, .zip2 (.revAll .a) (.dup .a 3)),
  (116, .copy (.uzp2 .a .a) 3 .a 0),
  (117, .uzp2 .a (.dup .a 1)),
  (118, .zip1 (.dup .a 1) (.revAll .a)),
  (119, .uzp2 .a .a),
  (120, .uzp2 .a (.revAll .a)),
  (121, .uzp2 .a (.uzp1 .a (.dup .a 1))),
  (122, .uzp2 .a (.dup .a 2)),
  (123, .copy (.uzp2 .a .a) 2 .a 2),
  (124, .copy (.ext .a .a 1) 1 .a 3),
  (125, .uzp2 .a (.ext .a .a 2)),
  (126, .copy (.rev2 .a) 1 .a 3),
  (127, .uzp2 .a (.dup .a 3)),
  (128, .uzp2 (.revAll .a) (.dup .a 0)),
  (129, .copy (.ext .a .a 2) 1 .a 0),
  (130, .uzp1 (.ext .a .a 2) .a),
  (131, .uzp2 (.ext .a .a 1) (.uzp2 (.ext .a .a 1) .a)),
  (132, .revAll (.uzp1 (.zip1 .a .a) .a)),
  (133, .uzp2 (.revAll .a) (.dup .a 1)),
  (134, .ext (.dup .a 2) .a 3),
  (135, .uzp2 (.revAll .a) .a),
  (136, .uzp2 (.revAll .a) (.revAll .a)),
  (137, .zip1 (.dup .a 2) .a),
  (138, .trn1 (.dup .a 2) .a),
  (139, .copy (.copy .a 0 .a 2) 1 .a 0),
  (140, .zip2 .a (.dup .a 0)),
  (141, .zip1 (.ext .a .a 2) .a),
  (142, .trn1 (.zip2 .a .a) .a),
  (143, .uzp2 (.revAll .a) (.dup .a 3)),
  (144, .ext (.revAll .a) .a 1),
  (145, .ext (.revAll .a) (.rev2 .a) 1),
  (146, .uzp2 (.uzp1 .a (.ext .a .a 3)) (.ext .a .a 3)),
  (147, .ext (.revAll .a) (.revAll .a) 1),
  (148, .zip2 (.ext (.revAll .a) (.revAll .a) 3) (.revAll .a)),
  (149, .ext (.dup .a 2) (.dup .a 1) 3),
  (150, .zip1 (.rev2 (.ext .a .a 1)) (.ext .a .a 1)),
  (151, .copy (.copy .a 0 .a 2) 2 .a 1),
  (152, .zip2 (.dup .a 2) (.revAll .a)),
  (153, .trn1 (.dup .a 2) (.dup .a 1)),
  (154, .copy (.dup .a 2) 1 .a 1),
  (155, .copy .a 0 .a 2),
  (156, .zip2 .a (.revAll .a)),
  (157, .zip2 .a (.dup .a 1)),
  (158, .zip2 .a (.ext .a .a 3)),
  (159, .copy (.zip2 .a .a) 1 .a 1),
  (160, .ext (.trn1 .a .a) (.trn1 .a .a) 2),
  (161, .ext (.dup .a 2) .a 2),
  (162, .uzp1 (.dup .a 2) .a),
  (163, .copy (.zip2 .a .a) 2 .a 0),
  (164, .copy (.revAll .a) 0 .a 2),
  (165, .ext (.dup .a 2) (.dup .a 1) 2),
  (166, .copy (.dup .a 2) 2 .a 1),
  (167, .uzp2 (.dup .a 2) .a),
  (168, .ext (.dup .a 2) .a 1),
  (169, .ext (.dup .a 2) (.dup .a 1) 1),
  (170, .dup .a 2),
  (171, .zip2 (.dup .a 2) .a),
  (172, .copy (.ext .a .a 1) 0 .a 2),
  (173, .copy (.zip2 .a .a) 3 .a 1),
  (174, .zip2 .a (.dup .a 2)),
  (175, .zip2 .a .a),
  (176, .ext .a (.dup .a 0) 2),
  (177, .ext .a .a 2),
  (178, .copy (.ext .a .a 2) 3 .a 2),
  (179, .trn2 (.revAll .a) (.dup .a 3)),
  (180, .ext .a (.rev2 .a) 2),
  (181, .ext .a (.dup .a 1) 2),
  (182, .wideCopy (.ext .a .a 3) 0 .a 1),
  (183, .copy (.uzp2 .a .a) 0 .a 2),
  (184, .copy (.wideCopy .a 0 .a 1) 3 .a 0),
  (185, .ext (.rev2 .a) (.revAll .a) 3),
  (186, .ext .a (.dup .a 2) 2),
  (187, .wideDup .a 1),
  (188, .zip2 .a (.ext .a .a 1)),
  (189, .copy (.ext .a .a 2) 2 .a 3),
  (190, .ext .a (.revAll .a) 2),
  (191, .ext .a (.dup .a 3) 2),
  (192, .ext .a (.dup .a 0) 3),
  (193, .zip1 (.ext .a .a 3) .a),
  (194, .copy (.ext .a .a 3) 2 .a 0),
  (195, .zip1 (.ext .a .a 3) (.zip1 .a (.ext .a .a 3))),
  (196, .trn1 (.revAll .a) (.dup .a 0)),
  (197, .copy (.zip1 .a .a) 0 .a 3),
  (198, .ext .a .a 3),
  (199, .copy (.ext .a .a 3) 3 .a 3),
  (200, .zip1 (.revAll .a) (.dup .a 0)),
  (201, .zip1 (.revAll .a) .a),
  (202, .copy (.ext .a .a 3) 2 .a 2),
  (203, .wideCopy (.ext .a .a 3) 1 .a 1),
  (204, .trn1 (.dup .a 3) (.dup .a 0)),
  (205, .zip1 (.dup .a 3) .a),
  (206, .trn1 (.dup .a 3) .a),
  (207, .copy (.dup .a 3) 1 .a 0),
  (208, .uzp1 (.revAll .a) (.dup .a 0)),
  (209, .copy (.wideCopy .a 1 .a 0) 0 .a 3),
  (210, .uzp1 (.revAll .a) .a),
  (211, .ext .a (.rev2 .a) 3),
  (212, .copy (.revAll .a) 1 .a 1),
  (213, .ext .a (.dup .a 1) 3),
  (214, .copy (.ext .a .a 3) 1 .a 1),
  (215, .uzp2 (.ext .a .a 2) .a),
  (216, .zip2 (.rev2 .a) (.revAll .a)),
  (217, .zip1 (.revAll .a) (.dup .a 1)),
  (218, .uzp1 (.revAll .a) (.dup .a 2)),
  (219, .copy .a 0 .a 3),
  (220, .zip2 (.dup .a 3) (.revAll .a)),
  (221, .uzp1 (.revAll .a) (.revAll .a)),
  (222, .revAll (.uzp2 (.zip2 .a .a) .a)),
  (223, .trn2 (.dup .a 3) .a),
  (224, .copy (.revAll .a) 2 .a 0),
  (225, .ext (.rev2 .a) .a 2),
  (226, .copy (.uzp1 .a .a) 0 .a 3),
  (227, .zip2 (.ext .a .a 1) .a),
  (228, .revAll .a),
  (229, .copy (.revAll .a) 3 .a 1),
  (230, .trn1 (.revAll .a) (.dup .a 2)),
  (231, .copy (.revAll .a) 3 .a 3),
  (232, .copy (.revAll .a) 2 .a 2),
  (233, .ext .a (.uzp2 (.uzp1 .a .a) .a) 3),
  (234, .ext .a (.dup .a 2) 3),
  (235, .zip2 (.rev2 .a) .a),
  (236, .trn2 (.dup .a 3) (.revAll .a)),
  (237, .rev2 (.uzp2 (.zip2 .a .a) .a)),
  (238, .ext (.rev2 .a) (.revAll .a) 2),
  (239, .zip2 (.dup .a 3) .a),
  (240, .ext (.dup .a 3) (.dup .a 0) 2),
  (241, .ext (.dup .a 3) .a 2),
  (242, .uzp1 (.dup .a 3) .a),
  (243, .copy (.dup .a 3) 2 .a 0),
  (244, .copy (.revAll .a) 1 .a 3),
  (245, .ext (.trn2 .a .a) (.trn2 .a .a) 2),
  (246, .copy (.ext .a .a 3) 1 .a 3),
  (247, .uzp2 (.dup .a 3) .a),
  (248, .zip2 (.rev2 .a) (.ext .a .a 1)),
  (249, .ext .a (.revAll .a) 3),
  (250, .zip1 (.revAll .a) (.revAll .a)),
  (251, .zip1 (.revAll .a) (.dup .a 3)),
  (252, .ext (.dup .a 3) .a 1),
  (253, .trn1 (.dup .a 3) (.revAll .a)),
  (254, .zip1 (.dup .a 3) (.revAll .a)),
  (255, .dup .a 3)
]

/-- The cases of the switch of `CCSimdInterleave` for 2 lanes of a 64-bit register
(CommonC/Simd64_arm.h lines 914-917). -/
def interleaveTable2 : List (Nat × Case) := [
  (0, .expr .a),
  (1, .expr (.copy .a 1 .b 1)),
  (2, .expr (.copy .a 0 .b 0)),
  (3, .expr .b)
]

/-- The cases of the switch of `CCSimdInterleave` for 4 lanes of a 64-bit register
(CommonC/Simd64_arm.h lines 932-947). -/
def interleaveTable4 : List (Nat × Case) := [
  (0, .expr .a),
  (1, .expr (.copy .a 3 .b 3)),
  (2, .expr (.copy .a 2 .b 2)),
  (3, .wide [0, 1]),
  (4, .expr (.copy .a 1 .b 1)),
  (5, .expr (.trn2 (.rev2 .a) .b)),
  (6, .expr (.copy (.copy .b 0 .a 0) 3 .a 3)),
  (7, .expr (.copy .b 0 .a 0)),
  (8, .expr (.copy .a 0 .b 0)),
  (9, .expr (.copy (.copy .a 0 .b 0) 3 .b 3)),
  (10, .expr (.trn2 (.rev2 .b) .a)),
  (11, .expr (.copy .b 1 .a 1)),
  (12, .wide [1, 0]),
  (13, .expr (.copy .b 2 .a 2)),
  (14, .expr (.copy .b 3 .a 3)),
  (15, .expr .b)
]

/-- The cases of the switch of `CCSimdInterleave` for 8 lanes of a 64-bit register
(CommonC/Simd64_arm.h lines 962-986). -/
def interleaveTable8 : List (Nat × Case) := [
  (0, .expr .a),
  (1, .expr (.copy .a 7 .b 7)),
  (2, .expr (.copy .a 6 .b 6)),
  (4, .expr (.copy .a 5 .b 5)),
  (8, .expr (.copy .a 4 .b 4)),
  (16, .expr (.copy .a 3 .b 3)),
  (32, .expr (.copy .a 2 .b 2)),
  (64, .expr (.copy .a 1 .b 1)),
  (128, .expr (.copy .a 0 .b 0)),
  (255, .expr .b),
  (3, .wide [0, 0, 0, 1]),
  (12, .wide [0, 0, 1, 0]),
  (15, .wide [0, 0, 1, 1]),
  (48, .wide [0, 1, 0, 0]),
  (51, .wide [0, 1, 0, 1]),
  (60, .wide [0, 1, 1, 0]),
  (63, .wide [0, 1, 1, 1]),
  (192, .wide [1, 0, 0, 0]),
  (195, .wide [1, 0, 0, 1]),
  (204, .wide [1, 0, 1, 0]),
  (207, .wide [1, 0, 1, 1]),
  (240, .wide [1, 1, 0, 0]),
  (243, .wide [1, 1, 0, 1]),
  (252, .wide [1, 1, 1, 0])
]

/-- The cases of the switch of `CCSimdMerge` for 2 lanes of a 64-bit register
(CommonC/Simd64_arm.h lines 1013-1021), the key being the value of `CC_SIMD_MERGE_MASK`. -/
def mergeTable2 : List (Nat × E) := [
  (16, .zip1 .a .b),
  (17, .zip2 (.dup .a 0) .b),
  (48, .ext .a .b 1),
  (49, .zip2 .a .b),
  (512, .zip1 .b .a),
  (513, .zip2 (.dup .b 0) .a),
  (544, .ext .b .a 1),
  (545, .zip2 .b .a)
]

/-- The cases of the switch of `CCSimdMerge` for 4 lanes of a 64-bit register
(CommonC/Simd64_arm.h lines 1038-1202), the key being the value of `CC_SIMD_MERGE_MASK`. -/
def mergeTable4 : List (Nat × E) := [
  (69203, .wideZip2 .a .b),
  (609347, .wideZip2 .b .a),
  (541697, .wideZip1 .b .a),
  (1553, .wideZip1 .a .b),
  (16433, .zip1 .a .b),
  (524833, .zip1 .b .a),
  (84083, .zip2 .a .b),
  (592483, .zip2 .b .a),
  (2578, .uzp1 .a .b),
  (542722, .uzp1 .b .a),
  (36403, .uzp2 .a .b),
  (576547, .uzp2 .b .a),
  (16466, .trn1 .a .b),
  (524866, .trn1 .b .a),
  (50291, .trn2 .a .b),
  (558691, .trn2 .b .a),
  (34928, .ext .a .b 1),
  (576096, .ext .b .a 1),
  (69137, .ext .a .b 2),
  (609281, .ext .b .a 2),
  (115250, .ext .a .b 3),
  (622626, .ext .b .a 3),
  (558592, .revAll (.zip1 .a .b)),
  (50192, .revAll (.zip1 .b .a)),
  (626242, .revAll (.zip2 .a .b)),
  (117842, .revAll (.zip2 .b .a)),
  (606272, .revAll (.uzp1 .a .b)),
  (66128, .revAll (.uzp1 .b .a)),
  (640097, .revAll (.uzp2 .a .b)),
  (99953, .revAll (.uzp2 .b .a)),
  (592384, .revAll (.trn1 .a .b)),
  (83984, .revAll (.trn1 .b .a)),
  (626209, .revAll (.trn2 .a .b)),
  (117809, .revAll (.trn2 .b .a)),
  (527425, .revAll (.ext .a .b 1)),
  (67075, .rev2 (.ext .a .b 1)),
  (20049, .revAll (.ext .b .a 1)),
  (607251, .rev2 (.ext .b .a 1)),
  (573538, .revAll (.ext .a .b 2)),
  (100912, .rev2 (.ext .a .b 2)),
  (33394, .revAll (.ext .b .a 2)),
  (641056, .rev2 (.ext .b .a 2)),
  (607747, .revAll (.ext .a .b 3)),
  (527953, .rev2 (.ext .a .b 3)),
  (66579, .revAll (.ext .b .a 3)),
  (19521, .rev2 (.ext .b .a 3)),
  (114769, .zip1 (.revAll .a) .b),
  (49169, .zip1 (.rev2 .a) .b),
  (19506, .zip1 .a (.revAll .b)),
  (17456, .zip1 .a (.rev2 .b)),
  (52242, .zip1 (.rev2 .a) (.revAll .b)),
  (115792, .zip1 (.revAll .a) (.rev2 .b)),
  (527906, .zip1 .b (.revAll .a)),
  (525856, .zip1 .b (.rev2 .a)),
  (623169, .zip1 (.revAll .b) .a),
  (557569, .zip1 (.rev2 .b) .a),
  (560642, .zip1 (.rev2 .b) (.revAll .a)),
  (624192, .zip1 (.revAll .b) (.rev2 .a)),
  (51219, .zip2 (.revAll .a) .b),
  (116819, .zip2 (.rev2 .a) .b),
  (83056, .zip2 .a (.revAll .b)),
  (85106, .zip2 .a (.rev2 .b)),
  (591456, .zip2 .b (.revAll .a)),
  (593506, .zip2 .b (.rev2 .a)),
  (559619, .zip2 (.revAll .b) .a),
  (625219, .zip2 (.rev2 .b) .a),
  (99858, .uzp1 (.revAll .a) .b),
  (36370, .uzp1 (.rev2 .a) .b),
  (2673, .uzp1 .a (.revAll .b)),
  (2611, .uzp1 .a (.rev2 .b)),
  (36465, .uzp1 (.rev2 .a) (.revAll .b)),
  (99891, .uzp1 (.revAll .a) (.rev2 .b)),
  (542817, .uzp1 .b (.revAll .a)),
  (542755, .uzp1 .b (.rev2 .a)),
  (640002, .uzp1 (.revAll .b) .a),
  (576514, .uzp1 (.rev2 .b) .a),
  (576609, .uzp1 (.rev2 .b) (.revAll .a)),
  (640035, .uzp1 (.revAll .b) (.rev2 .a)),
  (66099, .uzp2 (.revAll .a) .b),
  (36432, .uzp2 .a (.revAll .b)),
  (2640, .uzp2 (.rev2 .a) (.revAll .b)),
  (66066, .uzp2 (.revAll .a) (.rev2 .b)),
  (576576, .uzp2 .b (.revAll .a)),
  (606243, .uzp2 (.revAll .b) .a),
  (542784, .uzp2 (.rev2 .b) (.revAll .a)),
  (606210, .uzp2 (.revAll .b) (.rev2 .a)),
  (114738, .trn1 (.revAll .a) .b),
  (49266, .trn1 (.rev2 .a) .b),
  (19537, .trn1 .a (.revAll .b)),
  (17491, .trn1 .a (.rev2 .b)),
  (52337, .trn1 (.rev2 .a) (.revAll .b)),
  (115763, .trn1 (.revAll .a) (.rev2 .b)),
  (527937, .trn1 .b (.revAll .a)),
  (525891, .trn1 .b (.rev2 .a)),
  (623138, .trn1 (.revAll .b) .a),
  (557666, .trn1 (.rev2 .b) .a),
  (560737, .trn1 (.rev2 .b) (.revAll .a)),
  (624163, .trn1 (.revAll .b) (.rev2 .a)),
  (82963, .trn2 (.revAll .a) .b),
  (51312, .trn2 .a (.revAll .b)),
  (18512, .trn2 (.rev2 .a) (.revAll .b)),
  (81938, .trn2 (.revAll .a) (.rev2 .b)),
  (559712, .trn2 .b (.revAll .a)),
  (591363, .trn2 (.revAll .b) .a),
  (526912, .trn2 (.rev2 .b) (.revAll .a)),
  (590338, .trn2 (.revAll .b) (.rev2 .a)),
  (66576, .ext (.revAll .a) .b 1),
  (3152, .ext (.rev2 .a) .b 1),
  (34931, .ext .a (.revAll .b) 1),
  (34929, .ext .a (.rev2 .b) 1),
  (3155, .ext (.rev2 .a) (.revAll .b) 1),
  (66577, .ext (.revAll .a) (.rev2 .b) 1),
  (3153, .ext (.rev2 .a) (.rev2 .b) 1),
  (576099, .ext .b (.revAll .a) 1),
  (576097, .ext .b (.rev2 .a) 1),
  (607744, .ext (.revAll .b) .a 1),
  (544320, .ext (.rev2 .b) .a 1),
  (544323, .ext (.rev2 .b) (.revAll .a) 1),
  (607745, .ext (.revAll .b) (.rev2 .a) 1),
  (544321, .ext (.rev2 .b) (.rev2 .a) 1),
  (33297, .ext (.revAll .a) .b 2),
  (100881, .ext (.rev2 .a) .b 2),
  (69234, .ext .a (.revAll .b) 2),
  (69168, .ext .a (.rev2 .b) 2),
  (100978, .ext (.rev2 .a) (.revAll .b) 2),
  (33328, .ext (.revAll .a) (.rev2 .b) 2),
  (609378, .ext .b (.revAll .a) 2),
  (609312, .ext .b (.rev2 .a) 2),
  (573441, .ext (.revAll .b) .a 2),
  (641025, .ext (.rev2 .b) .a 2),
  (641122, .ext (.rev2 .b) (.revAll .a) 2),
  (573472, .ext (.revAll .b) (.rev2 .a) 2),
  (16946, .ext (.revAll .a) .b 3),
  (82482, .ext (.rev2 .a) .b 3),
  (118353, .ext .a (.revAll .b) 3),
  (116243, .ext .a (.rev2 .b) 3),
  (85585, .ext (.rev2 .a) (.revAll .b) 3),
  (17939, .ext (.revAll .a) (.rev2 .b) 3),
  (83475, .ext (.rev2 .a) (.rev2 .b) 3),
  (625729, .ext .b (.revAll .a) 3),
  (623619, .ext .b (.rev2 .a) 3),
  (524322, .ext (.revAll .b) .a 3),
  (589858, .ext (.rev2 .b) .a 3),
  (592961, .ext (.rev2 .b) (.revAll .a) 3),
  (525315, .ext (.revAll .b) (.rev2 .a) 3),
  (590851, .ext (.rev2 .b) (.rev2 .a) 3)
]

end D
/-- `CCSimdSwizzle` with a switch over `table`, for `n` lanes and `w` bits for each index
(CommonC/Simd128_arm.h lines 885-1168, CommonC/Simd64_arm.h lines 612-894): the assertion on the
indexes, then the case for them. -/
def swizzleBy {α : Type} (n w : Nat) (table : List (Nat × E)) (a : List α) (vs : List Nat) :
    Option (List α) :=
  if vs.all (· < n) then
    match table.lookup (key w vs) with
    | some e => e.eval a a
    | none => none
  else none

/-- The lanes of `Result` replaced one by one when no case matches (CommonC/Simd128_arm.h lines
1268-1277 and 1559-1577, CommonC/Simd64_arm.h lines 989-998): for lane `j` with a non-zero
argument, `vcopyq_laneq(Result, j, b, j)`. -/
def copyLanes {α : Type} (b : List α) : List α → Nat → List Nat → Option (List α)
  | r, _, [] => some r
  | r, j, v :: vs => do
      let r ← if v ≠ 0 then copy r j b j else some r
      copyLanes b r (j + 1) vs

/-- `CCSimdInterleave` with a switch over `table` (CommonC/Simd128_arm.h lines 1189-1585,
CommonC/Simd64_arm.h lines 908-1001): the assertion on the arguments, the case for them, or `rest`
when there is none; `half` is the function for lanes of twice the width. -/
def interleaveBy {α : Type} (table : List (Nat × Case))
    (half : List (α × α) → List (α × α) → List Nat → Option (List (α × α)))
    (rest : List α → List α → List Nat → Option (List α)) (a b : List α) (vs : List Nat) :
    Option (List α) :=
  if vs.all (· < 2) then
    match table.lookup (key 1 vs) with
    | some (.expr e) => e.eval a b
    | some (.wide ws) => (half (pairs a) (pairs b) ws).map unpairs
    | none => rest a b vs
  else none

/-- `CCSimdMerge` with a switch over `table` (CommonC/Simd128_arm.h lines 1589-1811,
CommonC/Simd64_arm.h lines 1005-1218) for `n` lanes: the assertions (lane number within the vector;
`!((v0 | v1 | …) & ~mask)`, written here as: the mask does not change the bits), the case for the
arguments, and otherwise the interleaving of the two swizzled vectors.  (For 16 lanes the first
assertion is not in the code; it holds of every argument.) -/
def mergeBy {α : Type} (n mask : Nat) (table : List (Nat × E))
    (swizzle : List α → List Nat → Option (List α))
    (interleave : List α → List α → List Nat → Option (List α)) (a b : List α) (vs : List Nat) :
    Option (List α) :=
  let all := vs.foldl (· ||| ·) 0
  if vs.all (fun v => (v &&& 15) < n) ∧ all &&& mask = all then
    match table.lookup (key 5 vs) with
    | some e => e.eval a b
    | none => do
        let x ← swizzle a (vs.map (· &&& (n - 1)))
        let y ← swizzle b (vs.map (· &&& (n - 1)))
        interleave x y (vs.map (· >>> 4))
  else none

/-- `vqtbl1q`/`vtbl1` (CommonC/Simd128_arm.h line 1183, CommonC/Simd64_arm.h line 902): lane `j`
is the lane the `j`-th index names.  (An index outside the register would give 0; the assertion
before the call excludes it, and it is `none` here.) -/
def tbl {α : Type} (a : List α) (vs : List Nat) : Option (List α) :=
  vs.mapM (fun v => a[v]?)

namespace Q

/-- `CCSimdSwizzle` for 2 lanes of a 128-bit register (CommonC/Simd128_arm.h lines 885-899). -/
def swizzle2 {α : Type} (a : List α) (vs : List Nat) : Option (List α) :=
  swizzleBy 2 1 swizzleTable2 a vs

/-- `CCSimdSwizzle` for 4 lanes of a 128-bit register (CommonC/Simd128_arm.h lines 902-1167). -/
def swizzle4 {α : Type} (a : List α) (vs : List Nat) : Option (List α) :=
  swizzleBy 4 2 swizzleTable4 a vs

/-- `CCSimdSwizzle` for 16 lanes of a 128-bit register (CommonC/Simd128_arm.h lines 1180-1184). -/
def swizzle16 {α : Type} (a : List α) (vs : List Nat) : Option (List α) :=
  if vs.all (· < 16) then tbl a vs else none

/-- `CCSimdSwizzle` for 8 lanes of a 128-bit register (CommonC/Simd128_arm.h lines 1171-1176),
the lanes being pairs of bytes: the swizzle of the bytes. -/
def swizzle8 {β : Type} (a : List (β × β)) (vs : List Nat) : Option (List (β × β)) :=
  if vs.all (· < 8) then
    (swizzle16 (unpairs a) (vs.flatMap (fun v => [v * 2, v * 2 + 1]))).map pairs
  else none

/-- `CCSimdInterleave` for 2 lanes of a 128-bit register (CommonC/Simd128_arm.h lines
1189-1203). -/
def interleave2 {α : Type} (a b : List α) (vs : List Nat) : Option (List α) :=
  interleaveBy interleaveTable2 (fun _ _ _ => none) (fun _ _ _ => none) a b vs

/-- `CCSimdInterleave` for 4 lanes of a 128-bit register (CommonC/Simd128_arm.h lines
1206-1232). -/
def interleave4 {α : Type} (a b : List α) (vs : List Nat) : Option (List α) :=
  interleaveBy interleaveTable4 interleave2 (fun _ _ _ => none) a b vs

/-- `CCSimdInterleave` for 8 lanes of a 128-bit register (CommonC/Simd128_arm.h lines
1235-1280). -/
def interleave8 {α : Type} (a b : List α) (vs : List Nat) : Option (List α) :=
  interleaveBy interleaveTable8 interleave4 (fun a b vs => copyLanes b a 0 vs) a b vs

/-- `CCSimdInterleave` for 16 lanes of a 128-bit register (CommonC/Simd128_arm.h lines
1284-1584). -/
def interleave16 {α : Type} (a b : List α) (vs : List Nat) : Option (List α) :=
  interleaveBy interleaveTable16 interleave8 (fun a b vs => copyLanes b a 0 vs) a b vs

/-- `CCSimdMerge` for 2 lanes of a 128-bit register (CommonC/Simd128_arm.h lines 1589-1609). -/
def merge2 {α : Type} (a b : List α) (vs : List Nat) : Option (List α) :=
  mergeBy 2 0x11 mergeTable2 swizzle2 interleave2 a b vs

/-- `CCSimdMerge` for 4 lanes of a 128-bit register (CommonC/Simd128_arm.h lines 1614-1790). -/
def merge4 {α : Type} (a b : List α) (vs : List Nat) : Option (List α) :=
  mergeBy 4 0x13 mergeTable4 swizzle4 interleave4 a b vs

/-- `CCSimdMerge` for 8 lanes of a 128-bit register (CommonC/Simd128_arm.h lines 1795-1800), the
lanes being pairs of bytes. -/
def merge8 {β : Type} (a b : List (β × β)) (vs : List Nat) : Option (List (β × β)) :=
  mergeBy 8 0x17 [] swizzle8 interleave8 a b vs

/-- `CCSimdMerge` for 16 lanes of a 128-bit register (CommonC/Simd128_arm.h lines 1805-1809). -/
def merge16 {α : Type} (a b : List α) (vs : List Nat) : Option (List α) :=
  mergeBy 16 0x1f [] swizzle16 interleave16 a b vs

end Q

namespace D

/-- `CCSimdSwizzle` for 2 lanes of a 64-bit register (CommonC/Simd64_arm.h lines 612-625). -/
def swizzle2 {α : Type} (a : List α) (vs : List Nat) : Option (List α) :=
  swizzleBy 2 1 swizzleTable2 a vs

/-- `CCSimdSwizzle` for 4 lanes of a 64-bit register (CommonC/Simd64_arm.h lines 629-894). -/
def swizzle4 {α : Type} (a : List α) (vs : List Nat) : Option (List α) :=
  swizzleBy 4 2 swizzleTable4 a vs

/-- `CCSimdSwizzle` for 8 lanes of a 64-bit register (CommonC/Simd64_arm.h lines 898-903). -/
def swizzle8 {α : Type} (a : List α) (vs : List Nat) : Option (List α) :=
  if vs.all (· < 8) then tbl a vs else none

/-- `CCSimdInterleave` for 2 lanes of a 64-bit register (CommonC/Simd64_arm.h lines 908-921). -/
def interleave2 {α : Type} (a b : List α) (vs : List Nat) : Option (List α) :=
  interleaveBy interleaveTable2 (fun _ _ _ => none) (fun _ _ _ => none) a b vs

/-- `CCSimdInterleave` for 4 lanes of a 64-bit register (CommonC/Simd64_arm.h lines 926-951). -/
def interleave4 {α : Type} (a b : List α) (vs : List Nat) : Option (List α) :=
  interleaveBy interleaveTable4 interleave2 (fun _ _ _ => none) a b vs

/-- `CCSimdInterleave` for 8 lanes of a 64-bit register (CommonC/Simd64_arm.h lines 956-1001). -/
def interleave8 {α : Type} (a b : List α) (vs : List Nat) : Option (List α) :=
  interleaveBy interleaveTable8 interleave4 (fun a b vs => copyLanes b a 0 vs) a b vs

/-- `CCSimdMerge` for 2 lanes of a 64-bit register (CommonC/Simd64_arm.h lines 1005-1025). -/
def merge2 {α : Type} (a b : List α) (vs : List Nat) : Option (List α) :=
  mergeBy 2 0x11 mergeTable2 swizzle2 interleave2 a b vs

/-- `CCSimdMerge` for 4 lanes of a 64-bit register (CommonC/Simd64_arm.h lines 1030-1206). -/
def merge4 {α : Type} (a b : List α) (vs : List Nat) : Option (List α) :=
  mergeBy 4 0x13 mergeTable4 swizzle4 interleave4 a b vs

/-- `CCSimdMerge` for 8 lanes of a 64-bit register (CommonC/Simd64_arm.h lines 1211-1217). -/
def merge8 {α : Type} (a b : List α) (vs : List Nat) : Option (List α) :=
  mergeBy 8 0x17 [] swizzle8 interleave8 a b vs

end D

end Verif.SimdShuffle
