import Verif.Props.FalseNeg
import Verif.Props.Build
import Verif.Props.AbsentKeys
import Verif.Props.Hang

/-!
# C100: an overloaded slot can make a release build drop a stored pair silently

The correctness of keyword retrieval (C04, C28) assumes in release builds that no filter slot is shared by 64 or more
keys. The assumption is needed: here are 96 hashes, 66 of them sharing a slot, such that for all keys with these hashes,
whatever the seed, the values, the initial contents and the sizes, a release build returns a key-value shard that does not
depend on the value of one of the pairs. When the 66th hash of the slot is counted the 8-bit counter has wrapped around and
says 2; the hashes are such that their sum is 0, so that the construction takes the hash for the second copy of a key it has
seen already and skips it.
-/

namespace Chalamet

open Spec

/-- A hash whose first slot is `s0`, and whose other slots and upper bits are given by `s1`, `s2` and `t`, in a filter with
segments of 64 cells. -/
def lossHash (s0 s1 s2 t : Nat) : U64 := BitVec.ofNat 64 (s0 * 2 ^ 58 + t * 2 ^ 40 + s1 * 2 ^ 18 + s2)

/-- The 96 hashes. The first 66 have slot 0 in common; number 65 is the sum (xor) of the 65 before it. -/
def lossHashes : List U64 :=
  [lossHash 0 1 0 1, lossHash 0 2 63 1, lossHash 0 2 1 3, lossHash 0 3 1 1, lossHash 0 1 2 1] ++
    (List.range 60).map (fun i => lossHash 0 4 (i + 3) 1) ++ [lossHash 0 3 1 3] ++
    (List.range 30).map (fun i => lossHash (i + 1) (5 ^^^ (i + 1)) (2 ^^^ (i + 1)) 1)

/-! ### The run of the construction on these hashes

Literal states of the run, each checked by evaluating the model in the kernel from the previous one. -/

/-- The tables after the counting pass. -/
def lossTC : T2 := lossyT [
  4, 4, 4, 4, 4, 4, 4, 4, 4, 4, 4, 4, 4, 4, 4, 4, 4, 4, 4, 4, 4, 4, 4, 4, 4, 4, 4, 4, 4, 4, 4, 0, 0, 0, 0, 0, 0,
  0, 0, 0, 0, 0, 0, 0, 0, 0, 0, 0, 0, 0, 0, 0, 0, 0, 0, 0, 0, 0, 0, 0, 0, 0, 0, 0, 0, 8, 8, 5, 240, 120, 0, 0,
  0, 0, 0, 0, 0, 0, 0, 0, 0, 0, 0, 0, 0, 0, 0, 0, 0, 0, 0, 0, 0, 0, 0, 0, 0, 0, 0, 0, 0, 0, 0, 0, 0, 0, 0, 0, 0,
  0, 0, 0, 0, 0, 0, 0, 0, 0, 0, 0, 0, 0, 0, 0, 0, 0, 0, 0, 6, 8, 126, 6, 6, 6, 6, 6, 6, 6, 6, 6, 6, 6, 6, 6, 6,
  6, 6, 6, 6, 6, 6, 6, 6, 6, 6, 6, 6, 6, 6, 6, 6, 6, 6, 6, 6, 6, 6, 6, 6, 6, 6, 6, 6, 6, 6, 6, 6, 6, 6, 6, 6, 6,
  6, 6, 6, 6, 6, 6, 6, 6, 6, 6] [
  3298535669761, 288231475664388099, 576461851816886272, 864692227968335873, 1152922604118736902,
  1441152980270186503, 1729383356422684676, 2017613732574134277, 2305844108728729610, 2594074484880179211,
  2882304861032677384, 3170535237184126985, 3458765613334528014, 3746995989485977615, 4035226365638475788,
  4323456741789925389, 4611687117944520722, 4899917494095970323, 5188147870248468496, 5476378246399918097,
  5764608622550319126, 6052838998701768727, 6341069374854266900, 6629299751005716501, 6917530127160311834,
  7205760503311761435, 7493990879464259608, 7782221255615709209, 8070451631766110238, 8358682007917559839,
  8646912384070058012, 0, 0, 0, 0, 0, 0, 0, 0, 0, 0, 0, 0, 0, 0, 0, 0, 0, 0, 0, 0, 0, 0, 0, 0, 0, 0, 0, 0, 0, 0,
  0, 0, 0, 0, 2, 2199023255614, 1099512414209, 60, 8935141660711190559, 0, 0, 0, 0, 0, 0, 0, 0, 0, 0, 0, 0, 0,
  0, 0, 0, 0, 0, 0, 0, 0, 0, 0, 0, 0, 0, 0, 0, 0, 0, 0, 0, 0, 0, 0, 0, 0, 0, 0, 0, 0, 0, 0, 0, 0, 0, 0, 0, 0, 0,
  0, 0, 0, 0, 0, 0, 0, 0, 1099511889920, 2199023517696, 8935142760222556189, 1099512676355, 1099512676356,
  1099512676357, 1099512676358, 1099512676359, 1099512676360, 1099512676361, 1099512676362, 1099512676363,
  1099512676364, 1099512676365, 1099512676366, 1099512676367, 1099512676368, 1099512676369, 1099512676370,
  1099512676371, 1099512676372, 1099512676373, 1099512676374, 1099512676375, 1099512676376, 1099512676377,
  1099512676378, 1099512676379, 1099512676380, 1099512676381, 1099512676382, 1099512676383, 1099512676384,
  1099512676385, 1099512676386, 1099512676387, 1099512676388, 1099512676389, 1099512676390, 1099512676391,
  1099512676392, 1099512676393, 1099512676394, 1099512676395, 1099512676396, 1099512676397, 1099512676398,
  1099512676399, 1099512676400, 1099512676401, 1099512676402, 1099512676403, 1099512676404, 1099512676405,
  1099512676406, 1099512676407, 1099512676408, 1099512676409, 1099512676410, 1099512676411, 1099512676412,
  1099512676413, 1099512676414, 1099512152127]

/-- The queue after the counting pass. -/
def lossQ : List Nat := [
  191, 190, 189, 188, 187, 186, 185, 184, 183, 182, 181, 180, 179, 178, 177, 176, 175, 174, 173, 172, 171, 170,
  169, 168, 167, 166, 165, 164, 163, 162, 161, 160, 159, 158, 157, 156, 155, 154, 153, 152, 151, 150, 149, 148,
  147, 146, 145, 144, 143, 142, 141, 140, 139, 138, 137, 136, 135, 134, 133, 132, 131, 128, 67, 30, 29, 28, 27,
  26, 25, 24, 23, 22, 21, 20, 19, 18, 17, 16, 15, 14, 13, 12, 11, 10, 9, 8, 7, 6, 5, 4, 3, 2, 1, 0]

/-- The queue after 60 iterations of the peeling. -/
def lossQ60 : List Nat := [
  133, 132, 131, 128, 67, 30, 29, 28, 27, 26, 25, 24, 23, 22, 21, 20, 19, 18, 17, 16, 15, 14, 13, 12, 11, 10, 9,
  8, 7, 6, 5, 4, 3, 2, 1, 0]

/-- The tables after 60 iterations of the peeling. -/
def lossTP : T2 := lossyT [
  20, 4, 4, 4, 4, 4, 4, 4, 4, 4, 4, 4, 4, 4, 4, 4, 4, 4, 4, 4, 4, 4, 4, 4, 4, 4, 4, 4, 4, 4, 4, 0, 0, 0, 0, 0,
  0, 0, 0, 0, 0, 0, 0, 0, 0, 0, 0, 0, 0, 0, 0, 0, 0, 0, 0, 0, 0, 0, 0, 0, 0, 0, 0, 0, 0, 8, 5, 0, 13, 120, 0, 0,
  0, 0, 0, 0, 0, 0, 0, 0, 0, 0, 0, 0, 0, 0, 0, 0, 0, 0, 0, 0, 0, 0, 0, 0, 0, 0, 0, 0, 0, 0, 0, 0, 0, 0, 0, 0, 0,
  0, 0, 0, 0, 0, 0, 0, 0, 0, 0, 0, 0, 0, 0, 0, 0, 0, 0, 0, 6, 6, 126, 6, 6, 6, 6, 6, 6, 6, 6, 6, 6, 6, 6, 6, 6,
  6, 6, 6, 6, 6, 6, 6, 6, 6, 6, 6, 6, 6, 6, 6, 6, 6, 6, 6, 6, 6, 6, 6, 6, 6, 6, 6, 6, 6, 6, 6, 6, 6, 6, 6, 6, 6,
  6, 6, 6, 6, 6, 6, 6, 6, 6, 6] [
  1099512676352, 288231475664388099, 576461851816886272, 864692227968335873, 1152922604118736902,
  1441152980270186503, 1729383356422684676, 2017613732574134277, 2305844108728729610, 2594074484880179211,
  2882304861032677384, 3170535237184126985, 3458765613334528014, 3746995989485977615, 4035226365638475788,
  4323456741789925389, 4611687117944520722, 4899917494095970323, 5188147870248468496, 5476378246399918097,
  5764608622550319126, 6052838998701768727, 6341069374854266900, 6629299751005716501, 6917530127160311834,
  7205760503311761435, 7493990879464259608, 7782221255615709209, 8070451631766110238, 8358682007917559839,
  8646912384070058012, 0, 0, 0, 0, 0, 0, 0, 0, 0, 0, 0, 0, 0, 0, 0, 0, 0, 0, 0, 0, 0, 0, 0, 0, 0, 0, 0, 0, 0, 0,
  0, 0, 0, 0, 2, 3298535407617, 0, 1099512676354, 8935141660711190559, 0, 0, 0, 0, 0, 0, 0, 0, 0, 0, 0, 0, 0, 0,
  0, 0, 0, 0, 0, 0, 0, 0, 0, 0, 0, 0, 0, 0, 0, 0, 0, 0, 0, 0, 0, 0, 0, 0, 0, 0, 0, 0, 0, 0, 0, 0, 0, 0, 0, 0, 0,
  0, 0, 0, 0, 0, 0, 0, 1099511889920, 1099512414209, 8935142760222556189, 1099512676355, 1099512676356,
  1099512676357, 1099512676358, 1099512676359, 1099512676360, 1099512676361, 1099512676362, 1099512676363,
  1099512676364, 1099512676365, 1099512676366, 1099512676367, 1099512676368, 1099512676369, 1099512676370,
  1099512676371, 1099512676372, 1099512676373, 1099512676374, 1099512676375, 1099512676376, 1099512676377,
  1099512676378, 1099512676379, 1099512676380, 1099512676381, 1099512676382, 1099512676383, 1099512676384,
  1099512676385, 1099512676386, 1099512676387, 1099512676388, 1099512676389, 1099512676390, 1099512676391,
  1099512676392, 1099512676393, 1099512676394, 1099512676395, 1099512676396, 1099512676397, 1099512676398,
  1099512676399, 1099512676400, 1099512676401, 1099512676402, 1099512676403, 1099512676404, 1099512676405,
  1099512676406, 1099512676407, 1099512676408, 1099512676409, 1099512676410, 1099512676411, 1099512676412,
  1099512676413, 1099512676414, 1099512152127]

/-- The stack after 60 iterations of the peeling. -/
def lossSP : List (U64 × Nat) := lossyS [
  (1099512676358, 2), (1099512676359, 2), (1099512676360, 2), (1099512676361, 2), (1099512676362, 2),
  (1099512676363, 2), (1099512676364, 2), (1099512676365, 2), (1099512676366, 2), (1099512676367, 2),
  (1099512676368, 2), (1099512676369, 2), (1099512676370, 2), (1099512676371, 2), (1099512676372, 2),
  (1099512676373, 2), (1099512676374, 2), (1099512676375, 2), (1099512676376, 2), (1099512676377, 2),
  (1099512676378, 2), (1099512676379, 2), (1099512676380, 2), (1099512676381, 2), (1099512676382, 2),
  (1099512676383, 2), (1099512676384, 2), (1099512676385, 2), (1099512676386, 2), (1099512676387, 2),
  (1099512676388, 2), (1099512676389, 2), (1099512676390, 2), (1099512676391, 2), (1099512676392, 2),
  (1099512676393, 2), (1099512676394, 2), (1099512676395, 2), (1099512676396, 2), (1099512676397, 2),
  (1099512676398, 2), (1099512676399, 2), (1099512676400, 2), (1099512676401, 2), (1099512676402, 2),
  (1099512676403, 2), (1099512676404, 2), (1099512676405, 2), (1099512676406, 2), (1099512676407, 2),
  (1099512676408, 2), (1099512676409, 2), (1099512676410, 2), (1099512676411, 2), (1099512676412, 2),
  (1099512676413, 2), (1099512676414, 2), (1099512414209, 2), (3298535407617, 1), (1099512152127, 2)]

/-- The tables after the peeling. -/
def lossTE : T2 := lossyT [
  0, 0, 4, 4, 4, 4, 4, 4, 4, 4, 4, 4, 4, 4, 4, 4, 4, 4, 4, 4, 4, 4, 4, 4, 4, 4, 4, 4, 4, 4, 4, 0, 0, 0, 0, 0, 0,
  0, 0, 0, 0, 0, 0, 0, 0, 0, 0, 0, 0, 0, 0, 0, 0, 0, 0, 0, 0, 0, 0, 0, 0, 0, 0, 0, 0, 5, 5, 0, 5, 0, 0, 0, 0, 0,
  0, 0, 0, 0, 0, 0, 0, 0, 0, 0, 0, 0, 0, 0, 0, 0, 0, 0, 0, 0, 0, 0, 0, 0, 0, 0, 0, 0, 0, 0, 0, 0, 0, 0, 0, 0, 0,
  0, 0, 0, 0, 0, 0, 0, 0, 0, 0, 0, 0, 0, 0, 0, 0, 0, 6, 6, 6, 0, 6, 6, 6, 6, 6, 6, 6, 6, 6, 6, 6, 6, 6, 6, 6, 6,
  6, 6, 6, 6, 6, 6, 6, 6, 6, 6, 6, 6, 6, 6, 6, 6, 6, 6, 6, 6, 6, 6, 6, 6, 6, 6, 6, 6, 6, 6, 6, 6, 6, 6, 6, 6, 6,
  6, 6, 6, 6, 6, 6, 6] [
  0, 0, 576461851816886272, 864692227968335873, 1152922604118736902, 1441152980270186503, 1729383356422684676,
  2017613732574134277, 2305844108728729610, 2594074484880179211, 2882304861032677384, 3170535237184126985,
  3458765613334528014, 3746995989485977615, 4035226365638475788, 4323456741789925389, 4611687117944520722,
  4899917494095970323, 5188147870248468496, 5476378246399918097, 5764608622550319126, 6052838998701768727,
  6341069374854266900, 6629299751005716501, 6917530127160311834, 7205760503311761435, 7493990879464259608,
  7782221255615709209, 8070451631766110238, 8358682007917559839, 8646912384070058012, 0, 0, 0, 0, 0, 0, 0, 0, 0,
  0, 0, 0, 0, 0, 0, 0, 0, 0, 0, 0, 0, 0, 0, 0, 0, 0, 0, 0, 0, 0, 0, 0, 0, 0, 1099511889922, 3298535407617, 0,
  1099512676355, 0, 0, 0, 0, 0, 0, 0, 0, 0, 0, 0, 0, 0, 0, 0, 0, 0, 0, 0, 0, 0, 0, 0, 0, 0, 0, 0, 0, 0, 0, 0, 0,
  0, 0, 0, 0, 0, 0, 0, 0, 0, 0, 0, 0, 0, 0, 0, 0, 0, 0, 0, 0, 0, 0, 0, 0, 0, 0, 0, 1099511889920, 1099512414209,
  288231475664388099, 0, 1099512676356, 1099512676357, 1099512676358, 1099512676359, 1099512676360,
  1099512676361, 1099512676362, 1099512676363, 1099512676364, 1099512676365, 1099512676366, 1099512676367,
  1099512676368, 1099512676369, 1099512676370, 1099512676371, 1099512676372, 1099512676373, 1099512676374,
  1099512676375, 1099512676376, 1099512676377, 1099512676378, 1099512676379, 1099512676380, 1099512676381,
  1099512676382, 1099512676383, 1099512676384, 1099512676385, 1099512676386, 1099512676387, 1099512676388,
  1099512676389, 1099512676390, 1099512676391, 1099512676392, 1099512676393, 1099512676394, 1099512676395,
  1099512676396, 1099512676397, 1099512676398, 1099512676399, 1099512676400, 1099512676401, 1099512676402,
  1099512676403, 1099512676404, 1099512676405, 1099512676406, 1099512676407, 1099512676408, 1099512676409,
  1099512676410, 1099512676411, 1099512676412, 1099512676413, 1099512676414, 1099512152127]

/-- The stack after the peeling. -/
def lossSE : List (U64 × Nat) := lossyS [
  (288231475664388099, 2), (576461851816886272, 0), (864692227968335873, 0), (1152922604118736902, 0),
  (1441152980270186503, 0), (1729383356422684676, 0), (2017613732574134277, 0), (2305844108728729610, 0),
  (2594074484880179211, 0), (2882304861032677384, 0), (3170535237184126985, 0), (3458765613334528014, 0),
  (3746995989485977615, 0), (4035226365638475788, 0), (4323456741789925389, 0), (4611687117944520722, 0),
  (4899917494095970323, 0), (5188147870248468496, 0), (5476378246399918097, 0), (5764608622550319126, 0),
  (6052838998701768727, 0), (6341069374854266900, 0), (6629299751005716501, 0), (6917530127160311834, 0),
  (7205760503311761435, 0), (7493990879464259608, 0), (7782221255615709209, 0), (8070451631766110238, 0),
  (8358682007917559839, 0), (8646912384070058012, 0), (1099511889922, 1), (1099511889920, 2),
  (1099512676355, 1), (1099512676356, 2), (1099512676357, 2), (1099512676358, 2), (1099512676359, 2),
  (1099512676360, 2), (1099512676361, 2), (1099512676362, 2), (1099512676363, 2), (1099512676364, 2),
  (1099512676365, 2), (1099512676366, 2), (1099512676367, 2), (1099512676368, 2), (1099512676369, 2),
  (1099512676370, 2), (1099512676371, 2), (1099512676372, 2), (1099512676373, 2), (1099512676374, 2),
  (1099512676375, 2), (1099512676376, 2), (1099512676377, 2), (1099512676378, 2), (1099512676379, 2),
  (1099512676380, 2), (1099512676381, 2), (1099512676382, 2), (1099512676383, 2), (1099512676384, 2),
  (1099512676385, 2), (1099512676386, 2), (1099512676387, 2), (1099512676388, 2), (1099512676389, 2),
  (1099512676390, 2), (1099512676391, 2), (1099512676392, 2), (1099512676393, 2), (1099512676394, 2),
  (1099512676395, 2), (1099512676396, 2), (1099512676397, 2), (1099512676398, 2), (1099512676399, 2),
  (1099512676400, 2), (1099512676401, 2), (1099512676402, 2), (1099512676403, 2), (1099512676404, 2),
  (1099512676405, 2), (1099512676406, 2), (1099512676407, 2), (1099512676408, 2), (1099512676409, 2),
  (1099512676410, 2), (1099512676411, 2), (1099512676412, 2), (1099512676413, 2), (1099512676414, 2),
  (1099512414209, 2), (3298535407617, 1), (1099512152127, 2)]

theorem loss_bucket : foldRes (bucketStep 1) (startPosInit 96 1, (BState.init 96 192).reverseOrder) lossHashes =
    .ok ([96, 48], lossHashes ++ [1#64]) := by decide +kernel

theorem loss_count : foldRes (countStep .release lossyLay.geom)
    { t := ((BState.init 96 192).t2count, (BState.init 96 192).t2hash), duplicates := 0, error := false } lossHashes =
    .ok { t := lossTC, duplicates := 1, error := false } := by decide +kernel

theorem loss_queue : foldRes (enqueueStep 192 lossTC.1) [] (List.range 192) = .ok lossQ := by decide +kernel

theorem loss_peel1 : peelIter .release lossyLay.geom 192 96 60 { q := lossQ, t := lossTC, stk := [] } =
    .ok { q := lossQ60, t := lossTP, stk := lossSP } := by decide +kernel

theorem loss_peel2 : peelLoop .release lossyLay.geom 192 96 324 { q := lossQ60, t := lossTP, stk := lossSP } =
    .ok { q := [], t := lossTE, stk := lossSE } := by decide +kernel

theorem attempt_of_parts {lay : Layout} {hashes ro : List U64} {st : BState} {sp q q1 : List Nat}
    {bb n1 n2 size len d : Nat} {t u1 u2 : T2} {s1 s2 : List (U64 × Nat)}
    (hbb : blockBits lay.segmentCount = bb) (hl : lay.arrayLen = len)
    (h0 : foldRes (bucketStep bb) (startPosInit size bb, st.reverseOrder) hashes = .ok (sp, ro))
    (h1 : foldRes (countStep .release lay.geom) { t := (st.t2count, st.t2hash), duplicates := 0, error := false }
      (ro.take size) = .ok { t := t, duplicates := d, error := false })
    (hq : foldRes (enqueueStep len t.1) [] (List.range len) = .ok q)
    (hf : len + 2 * size = n1 + n2)
    (p1 : peelIter .release lay.geom len size n1 { q := q, t := t, stk := [] } = .ok { q := q1, t := u1, stk := s1 })
    (p2 : peelLoop .release lay.geom len size n2 { q := q1, t := u1, stk := s1 } = .ok { q := [], t := u2, stk := s2 })
    (hs : s2.length + d = size) :
    attempt .release lay size hashes st = .ok (.done s2) := by
  subst hbb hl
  unfold attempt
  simp only
  rw [h0]
  simp only [Res.bind_ok]
  rw [h1]
  simp only [Res.bind_ok]
  rw [if_neg (by simp), hq, Res.bind_ok, hf, peelLoop_of_iter p1, p2, Res.bind_ok]
  simp only
  rw [if_pos hs]

theorem loss_length : lossHashes.length = 96 := by decide +kernel

theorem loss_nodup : lossHashes.Nodup := by decide +kernel

theorem loss_stack : lossSE.all (fun e => decide (e.2 < 3) && (lossHashes.eraseIdx 65).contains e.1) = true := by
  decide +kernel

theorem loss_attempt : attempt .release lossyLay 96 lossHashes (BState.init 96 192) = .ok (.done lossSE) :=
  attempt_of_parts (n1 := 60) (n2 := 324) (len := 192) (d := 1) lossy_block_bits rfl loss_bucket
    (by rw [List.take_left' loss_length]; exact loss_count) loss_queue rfl loss_peel1 loss_peel2 (by decide +kernel)

theorem foldRes_eq {α σ : Type} {f g : σ → α → Res σ} {l : List α} (s : σ) (h : ∀ a ∈ l, ∀ s, f s a = g s a) :
    foldRes f s l = foldRes g s l := by
  induction l generalizing s with
  | nil => rfl
  | cons a l ih =>
    rw [foldRes_cons, foldRes_cons, h a (by simp)]
    cases g s a with
    | ok s' => exact ih s' fun a ha => h a (by simp [ha])
    | err e => rfl
    | panic => rfl
    | diverge => rfl

theorem foldRes_total {α σ : Type} {f : σ → α → Res σ} {l : List α} (P : σ → Prop) (s : σ) (hs : P s)
    (h : ∀ a ∈ l, ∀ s, P s → ∃ s', f s a = .ok s' ∧ P s') : ∃ s', foldRes f s l = .ok s' ∧ P s' := by
  induction l generalizing s with
  | nil => exact ⟨s, rfl, hs⟩
  | cons a l ih =>
    obtain ⟨s', e, hs'⟩ := h a (by simp) s hs
    rw [foldRes_cons, e, Res.bind_ok]
    exact ih s' hs' fun a ha => h a (by simp [ha])

/-- A member of the stack is a hash other than number 65. -/
theorem loss_mem {e : U64 × Nat} (he : e ∈ lossSE) :
    e.2 < 3 ∧ ∃ (j : Nat) (hj : j < lossHashes.length), j ≠ 65 ∧ lossHashes[j] = e.1 := by
  have h := List.all_eq_true.1 loss_stack e he
  simp only [Bool.and_eq_true, decide_eq_true_eq, List.contains_iff_mem] at h
  obtain ⟨h1, h2⟩ := h
  obtain ⟨j, hj, hne, heq⟩ := (List.mem_eraseIdx_iff_getElem).1 h2
  exact ⟨h1, j, hj, hne, heq⟩

/-- The filter of keys with these hashes: it is built, and does not depend on datum number 65. -/
theorem loss_filter {segExp cap0 : Nat} (hlay : bfLayout 96 segExp cap0 = .ok lossyLay) {seed : List U8} {keys : List Key}
    (hk : keys.map (fun k => mix256 k seed) = lossHashes.map Res.ok) (fp0 : Nat → U32) (data data' : List U32)
    (hd : data.length = 96) (hd' : data'.length = 96) (he : ∀ i, i ≠ 65 → data[i]? = data'[i]?) (label p : U64)
    (hp : (p.setWidth 32 : U32) ≠ 0#32) :
    ∃ f, BinaryFuseP32.fromSlice .release segExp cap0 fp0 seed keys data label p = .ok f ∧
      BinaryFuseP32.fromSlice .release segExp cap0 fp0 seed keys data' label p = .ok f ∧ f.ptxtMod = p := by
  have hkl : keys.length = 96 := by simpa [loss_length] using congrArg List.length hk
  have hm : mapRes (fun k => mix256 k seed) keys = .ok lossHashes := by
    have : ∀ (ks : List Key) (hs : List U64), ks.map (fun k => mix256 k seed) = hs.map Res.ok →
        mapRes (fun k => mix256 k seed) ks = .ok hs := by
      intro ks
      induction ks with
      | nil => intro hs h; cases hs with
        | nil => rfl
        | cons => simp at h
      | cons k ks ih => intro hs h; cases hs with
        | nil => simp at h
        | cons a as =>
          simp only [List.map_cons, List.cons.injEq] at h
          rw [mapRes_cons, h.1, Res.bind_ok, ih as h.2, Res.bind_ok]
    exact this _ _ hk
  obtain ⟨s, k, hg⟩ := bfLayout_wf hlay
  have ho := fun h => slotsOk hg h
  have hget : ∀ e ∈ lossSE, ∃ d, hmGet lossHashes data e.1 = some d ∧ hmGet lossHashes data' e.1 = some d := by
    intro e hmem
    obtain ⟨_, j, hj, hj65, hje⟩ := loss_mem hmem
    have hj' := hj
    rw [loss_length] at hj'
    have hlast : ∀ k (hk : k < lossHashes.length), j < k → lossHashes[k] ≠ e.1 := by
      intro k hk hjk hc
      have := (List.Nodup.getElem_inj_iff loss_nodup (hi := hk) (hj := hj)).1 (hc.trans hje.symm)
      omega
    refine ⟨data[j]'(by omega), hmGet_last hj (by omega) hje hlast, ?_⟩
    rw [hmGet_last hj (show j < data'.length by omega) hje hlast]
    have := he j hj65
    rw [List.getElem?_eq_getElem (by omega), List.getElem?_eq_getElem (by omega)] at this
    exact this.symm
  obtain ⟨B, hB, _⟩ := foldRes_total (f := assignStepP lossyLay.geom lossHashes data label p) (l := lossSE)
    (fun B => B.length = lossyLay.arrayLen) ((List.range lossyLay.arrayLen).map fp0) (by simp) (by
      intro e hmem B hB
      obtain ⟨d, h1, _⟩ := hget e hmem
      exact ⟨_, assignStepP_eq (ho e.1) (loss_mem hmem).1 h1 hp hB, by simpa using hB⟩)
  have hB' : foldRes (assignStepP lossyLay.geom lossHashes data' label p)
      ((List.range lossyLay.arrayLen).map fp0) lossSE = .ok B := by
    rw [← hB]
    refine foldRes_eq _ fun e hmem s => ?_
    obtain ⟨d, h1, h2⟩ := hget e hmem
    unfold assignStepP
    simp only
    rw [h1, h2]
  refine ⟨{ seed := seed, geom := lossyLay.geom, fingerprints := B, ptxtMod := p }, ?_, ?_, rfl⟩
  all_goals
    unfold BinaryFuseP32.fromSlice
    rw [if_neg (by omega)]
    unfold bfusePFromImpl
    rw [if_neg (by simp), hkl]
    simp only []
    rw [hlay, Res.bind_ok, hm, Res.bind_ok, if_neg (by omega),
      show bfpMaxIter = 99999 + 1 from rfl, bfpLoop]
  · rw [show lossyLay.arrayLen = 192 from rfl] at hB
    rw [show lossyLay.arrayLen = 192 from rfl, loss_attempt, Res.bind_ok]
    simp only [Res.bind_ok]
    rw [hB]
    rfl
  · rw [show lossyLay.arrayLen = 192 from rfl] at hB'
    rw [show lossyLay.arrayLen = 192 from rfl, loss_attempt, Res.bind_ok]
    simp only [Res.bind_ok]
    rw [hB']
    rfl

/-- 96 keys with these hashes under the seed `exSeed`, found by a search. -/
def lossExKeys : List Key := [
  [2525409, 6353656, 4911256, 29326], [5138803, 7314334, 1841090, 566770], [4079640, 4697104, 2957189, 11493],
  [1225124, 1707731, 2145913, 202749], [2211066, 6868759, 1340518, 257204], [260622, 1340091, 670777, 601640],
  [1042065, 8097956, 374221, 311613], [1953460, 5079903, 6612987, 89451], [1508925, 7096429, 6202877, 41838],
  [618077, 1357112, 5388788, 117086], [5450077, 7584025, 5025693, 40798], [1810226, 8142223, 8152134, 1643389],
  [1134093, 6136453, 5418435, 15730], [4095080, 7262787, 5821324, 647202], [5220539, 6239850, 5910568, 193856],
  [6905269, 7376324, 4073283, 561293], [1775907, 4763419, 303577, 183106], [1789549, 2669483, 654331, 177010],
  [910894, 1540999, 4996858, 92876], [3734306, 7905288, 5013485, 304807], [5881905, 5999964, 3008742, 193651],
  [2110684, 3185208, 452989, 266812], [2117827, 4988776, 882626, 53282], [1904149, 4443392, 6206212, 140567],
  [4148432, 4884024, 398602, 52887], [120306, 238014, 1614825, 137968], [637576, 4139045, 2329834, 93630],
  [367672, 1735925, 7326007, 63396], [5369049, 5552018, 2706555, 202879], [2002623, 5402362, 3694764, 405289],
  [2574756, 4018443, 5146027, 10244], [2486663, 8310571, 6756011, 239124], [2683935, 5599745, 8364190, 34797],
  [6335053, 7477416, 1094554, 105315], [6370863, 6386144, 4860538, 343963], [2567609, 4679298, 2768161, 143774],
  [1457065, 1463423, 1125529, 284565], [270654, 706003, 956961, 431714], [1277107, 3597787, 1541218, 597480],
  [2260089, 3919766, 7447558, 191917], [1178499, 4559192, 7518706, 94432], [3266352, 7079288, 8238368, 119475],
  [2662677, 7613017, 1026340, 993819], [1460197, 7970415, 2145882, 190694], [877507, 6437855, 3389425, 62705],
  [1045129, 2836247, 6131677, 567375], [7665803, 8081058, 214598, 68927], [535260, 4809761, 3718358, 166378],
  [3824165, 6855966, 3901449, 922995], [3043006, 5032277, 6730660, 345759], [3182948, 6943806, 5906950, 8083],
  [957082, 2779536, 7831758, 20699], [1749295, 7912268, 7909143, 197254], [2566339, 7856140, 6734353, 163491],
  [1336749, 2755202, 8265538, 287087], [4438052, 7401800, 6663114, 1814885], [1770455, 7155241, 2408364, 24195],
  [6533996, 7895978, 4664296, 89982], [1015779, 4159435, 294048, 271776], [3373399, 4017474, 271203, 200243],
  [348569, 1632131, 1329999, 139500], [145389, 5528622, 8174203, 15482], [2284181, 7684109, 4038026, 679413],
  [716466, 3957508, 7287424, 137763], [2124551, 6236585, 1375518, 412176], [2474720, 5826239, 7786347, 37801],
  [3901597, 6264533, 2342242, 439221], [1707359, 3493561, 484821, 235101], [803447, 6889485, 5728542, 111030],
  [5978688, 8043646, 5646569, 438793], [4694557, 5715892, 6087838, 51317], [1610210, 8188226, 5146555, 15438],
  [4567063, 8006268, 8287551, 390180], [370336, 2266189, 397001, 136319], [417280, 4570204, 8255911, 65064],
  [6836531, 7729068, 6586129, 408714], [3916001, 5756130, 6954652, 16328], [6156839, 6651365, 2173412, 246409],
  [3698518, 4384705, 313472, 67657], [1849067, 2223511, 5204526, 160582], [2766688, 5592534, 8199602, 41894],
  [6393305, 6833715, 5950448, 86284], [649514, 6411967, 2874039, 23932], [6739057, 7411163, 8016384, 134002],
  [6963412, 8193551, 4579546, 380915], [1064370, 1507217, 590851, 152955], [3317911, 5001312, 5746463, 16167],
  [690813, 2869999, 1629087, 340709], [1048408, 4931343, 5873597, 485439], [6911485, 6978757, 6750399, 107570],
  [422965, 7196995, 6991339, 96644], [2406793, 6714956, 5801167, 338746], [1423975, 2082741, 8023440, 1089745],
  [4887177, 7625715, 1840916, 17309], [5959, 5605411, 3027157, 6841], [2087978, 2261626, 1562928, 100776]].map fun k => k.map (BitVec.ofNat 64)

theorem width_pos {T b : Nat} (hb : 1 ≤ b) (hT : 0 < T) : 0 < width T b :=
  Nat.div_pos (by omega) (by omega)

theorem pow2U64_ok {b : Nat} (hb : b ≤ 31) (prof : Profile) : pow2U64 prof b = .ok (BitVec.ofNat 64 (2 ^ b)) := by
  unfold pow2U64
  have e : b % 2 ^ 32 = b := Nat.mod_eq_of_lt (by omega)
  simp only [e]
  rw [if_pos (by omega)]

theorem column_of_lengths {kvs : List KeyValue} {w j : Nat} (hv : ∀ kv ∈ kvs, kv.value.length = w) (hj : j < w) :
    mapRes (fun kv : KeyValue => rd kv.value j) kvs = .ok (kvs.map fun kv => kv.value.getD j 0#32) :=
  mapRes_ok_of_forall fun kv hkv => by
    have : j < kv.value.length := by rw [hv kv hkv]; exact hj
    rw [rd_ok this, getD_lt this]

theorem kvs_length_of_hashes {seed : List U8} {kvs : List KeyValue}
    (hk : kvs.map (fun kv => mix256 kv.key seed) = lossHashes.map Res.ok) : kvs.length = 96 := by
  simpa [loss_length] using congrArg List.length hk

/-- Column filters of two lists of pairs that differ in the value of pair number 65 only. -/
theorem loss_column {segExp cap0 : Nat} (hlay : bfLayout 96 segExp cap0 = .ok lossyLay) {seed : List U8}
    {kvs kvs' : List KeyValue} (hk : kvs.map (fun kv => mix256 kv.key seed) = lossHashes.map Res.ok)
    (hkey : kvs'.map (·.key) = kvs.map (·.key)) (hval : ∀ i, i ≠ 65 → kvs'[i]? = kvs[i]?) {w b : Nat} (hb : b ≤ 31)
    (hv : ∀ kv ∈ kvs, kv.value.length = w) (hv' : ∀ kv ∈ kvs', kv.value.length = w) (fp0 : Nat → Nat → U32) {j : Nat}
    (hj : j < w) :
    ∃ f, columnFilter .release segExp cap0 fp0 seed kvs b j = .ok f ∧
      columnFilter .release segExp cap0 fp0 seed kvs' b j = .ok f ∧ f.ptxtMod = BitVec.ofNat 64 (2 ^ b) := by
  have hl := kvs_length_of_hashes hk
  have hl' : kvs'.length = 96 := by rw [← hl]; simpa using congrArg List.length hkey
  have h2b : 2 ^ b < 2 ^ 32 := Nat.pow_lt_pow_right (by omega) (by omega)
  have hpn : (BitVec.ofNat 64 (2 ^ b) : U64).toNat = 2 ^ b := by
    rw [BitVec.toNat_ofNat]
    exact Nat.mod_eq_of_lt (by omega)
  obtain ⟨f, h1, h2, h3⟩ := loss_filter hlay (seed := seed) (keys := kvs.map (·.key)) (by rw [List.map_map]; exact hk) (fp0 j)
    (kvs.map fun kv => kv.value.getD j 0#32) (kvs'.map fun kv => kv.value.getD j 0#32) (by simpa using hl)
    (by simpa using hl') (by intro i hi; rw [List.getElem?_map, List.getElem?_map, hval i hi]) (BitVec.ofNat 64 j)
    (BitVec.ofNat 64 (2 ^ b)) (setWidth_ne_zero (by rw [hpn]; exact Nat.two_pow_pos b) (by rw [hpn]; exact h2b))
  refine ⟨f, ?_, ?_, h3⟩
  · unfold columnFilter
    rw [column_of_lengths hv hj, Res.bind_ok, pow2U64_ok hb, Res.bind_ok, h1]
    rfl
  · unfold columnFilter
    rw [column_of_lengths hv' hj, Res.bind_ok, pow2U64_ok hb, Res.bind_ok, hkey, h2]
    rfl

/-- **C100 (not stored).** Take 96 pairs whose keys have the hashes `lossHashes` (under whatever seed), all with values of
the right length. A release build of the shard returns, and the shard is the same whatever the value of pair number 65 is:
that value is not in it. -/
theorem C100_not_stored (prg : Prg) (pseed : List U8) (segExp cap0 : Nat) (fp0 : Nat → Nat → U32) (seed : List U8)
    (kvs kvs' : List KeyValue) (n m T b : Nat) (hlay : bfLayout 96 segExp cap0 = .ok lossyLay)
    (hb1 : 1 ≤ b) (hb : b ≤ 31) (hT : 0 < T)
    (hk : kvs.map (fun kv => mix256 kv.key seed) = lossHashes.map Res.ok)
    (hv : ∀ kv ∈ kvs, kv.value.length = width T b)
    (hkey : kvs'.map (·.key) = kvs.map (·.key)) (hval : ∀ i, i ≠ 65 → kvs'[i]? = kvs[i]?)
    (hv' : ∀ kv ∈ kvs', kv.value.length = width T b) :
    ∃ shard, KVShard.new .release prg pseed segExp cap0 fp0 seed kvs n m T b = .ok shard ∧
      KVShard.new .release prg pseed segExp cap0 fp0 seed kvs' n m T b = .ok shard := by
  have hl := kvs_length_of_hashes hk
  have hl' : kvs'.length = 96 := by rw [← hl]; simpa using congrArg List.length hkey
  have hw : 0 < width T b := width_pos hb1 hT
  have hcol := fun j (hj : j < width T b) => loss_column hlay hk hkey hval hb hv hv' fp0 hj
  obtain ⟨shard, hsh⟩ := kvShard_of_columns (prof := .release) (prg := prg) (pseed := pseed) (n := n) (m := m) hb1 hb hw
    (by intro e; rw [e] at hl; simp at hl) hv (by rw [hl]; exact hlay) (fun j hj => by
      obtain ⟨f, h1, _, h3⟩ := hcol j hj
      exact ⟨f, h1, h3⟩)
  refine ⟨shard, hsh, ?_⟩
  rw [← hsh]
  have e : KVDatabase.new .release segExp cap0 fp0 seed kvs' m T b = KVDatabase.new .release segExp cap0 fp0 seed kvs m T b := by
    have h0 : 0 < kvs.length := by omega
    have h0' : 0 < kvs'.length := by omega
    unfold KVDatabase.new storageFiltersFromKvs
    rw [rd_ok h0, rd_ok h0', Res.bind_ok, Res.bind_ok, hv _ (List.getElem_mem h0), hv' _ (List.getElem_mem h0'),
      mapRes_congr (f := columnFilter .release segExp cap0 fp0 seed kvs' b)
        (g := columnFilter .release segExp cap0 fp0 seed kvs b) (fun j hj => by
          obtain ⟨f, h1, h2, _⟩ := hcol j (List.mem_range.1 hj)
          rw [h1, h2])]
  unfold KVShard.new
  rw [e]

/-- The counting pass of a debug build panics on these hashes. -/
theorem loss_count_debug : foldRes (countStep .debug lossyLay.geom)
    { t := ((BState.init 96 192).t2count, (BState.init 96 192).t2hash), duplicates := 0, error := false } lossHashes =
    .panic := by decide +kernel

/-- **C100 (debug builds).** A debug build panics on the same pairs. -/
theorem C100_debug (prg : Prg) (pseed : List U8) (segExp cap0 : Nat) (fp0 : Nat → Nat → U32) (seed : List U8)
    (kvs : List KeyValue) (n m T b : Nat) (hlay : bfLayout 96 segExp cap0 = .ok lossyLay)
    (hb1 : 1 ≤ b) (hb : b ≤ 31) (hT : 0 < T)
    (hk : kvs.map (fun kv => mix256 kv.key seed) = lossHashes.map Res.ok)
    (hv : ∀ kv ∈ kvs, kv.value.length = width T b) :
    KVShard.new .debug prg pseed segExp cap0 fp0 seed kvs n m T b = .panic := by
  have hl := kvs_length_of_hashes hk
  have h0 : 0 < kvs.length := by omega
  have hw : 0 < width T b := width_pos hb1 hT
  have hm : mapRes (fun k => mix256 k seed) (kvs.map (·.key)) = .ok lossHashes :=
    mapRes_eq_ok.2 (by rw [List.map_map]; exact hk)
  have hat : attempt .debug lossyLay 96 lossHashes (BState.init 96 192) = .panic := by
    unfold attempt
    simp only [lossy_block_bits]
    rw [loss_bucket]
    simp only [Res.bind_ok]
    rw [List.take_left' loss_length, loss_count_debug]
    rfl
  have hcol : columnFilter .debug segExp cap0 fp0 seed kvs b 0 = .panic := by
    unfold columnFilter
    rw [column_of_lengths hv hw, Res.bind_ok, pow2U64_ok hb, Res.bind_ok]
    have : BinaryFuseP32.fromSlice .debug segExp cap0 (fp0 0) seed (kvs.map (·.key)) (kvs.map fun kv => kv.value.getD 0 0#32)
        (BitVec.ofNat 64 0) (BitVec.ofNat 64 (2 ^ b)) = .panic := by
      unfold BinaryFuseP32.fromSlice
      rw [if_neg (by simp), bfusePFromImpl_eq]
      split
      · rfl
      · rw [List.length_map, hl, hlay, Res.bind_ok, hm, Res.bind_ok, if_neg (by simp; omega),
          show bfpMaxIter = 99999 + 1 from rfl, bfpLoop, show lossyLay.arrayLen = 192 from rfl, hat]
        rfl
    rw [this]
    rfl
  obtain ⟨w, hw'⟩ : ∃ w, width T b = w + 1 := ⟨width T b - 1, by omega⟩
  unfold KVShard.new KVDatabase.new storageFiltersFromKvs
  rw [rd_ok h0, Res.bind_ok, hv _ (List.getElem_mem h0), hw', List.range_succ_eq_map, mapRes_cons, hcol]
  rfl

/-- **C100 (misread).** For all such pairs and every column there is another value of pair number 65, differing from the given
one in that column at most, such that the shard of a release build (the same shard) makes every client whose noise is in the
window read something else for the key of that pair. -/
theorem C100_misread (prg : Prg) (pseed : List U8) (segExp cap0 : Nat) (fp0 : Nat → Nat → U32) (seed : List U8)
    (kvs : List KeyValue) (n m T b : Nat) (hlay : bfLayout 96 segExp cap0 = .ok lossyLay)
    (hb1 : 1 ≤ b) (hb : b ≤ 31) (hT : 0 < T) (hT64 : T < 2 ^ 64)
    (hk : kvs.map (fun kv => mix256 kv.key seed) = lossHashes.map Res.ok)
    (hv : ∀ kv ∈ kvs, kv.value.length = width T b) (j : Nat) (hj : j < width T b) :
    ∃ (h65 : 65 < kvs.length) (x : U32) (shard : KVShard) (col : List U32), x.toNat < 2 ^ b ∧
      KVShard.new .release prg pseed segExp cap0 fp0 seed kvs n m T b = .ok shard ∧
      KVShard.new .release prg pseed segExp cap0 fp0 seed
        (kvs.set 65 { kvs[65] with value := kvs[65].value.set j x }) n m T b = .ok shard ∧
      shard.db.getRow j = .ok col ∧
      ∀ (tape tape' : List U32) (qp : QueryParams FilterParams),
        generateKvQueryParams (commonParamsFrom prg shard.baseParams.publicSeed shard.baseParams.dim shard.baseParams.m)
          shard.baseParams tape = .ok (qp, tape') →
        ∃ s t1 e, randomTernaryVector n tape = .ok (s, t1) ∧ randomTernaryVector shard.baseParams.m t1 = .ok (e, tape') ∧
          (InWindow b (dot e col) → ∃ qp' q bytes resp row, qp.generateKvQuery .release kvs[65].key = (qp', .ok q) ∧
            shard.respond q = .ok bytes ∧ bincodeDeserialize bytes = .ok resp ∧ qp'.parseKvRow .release resp kvs[65].key = .ok row ∧ row.length = width T b ∧
            row[j]? ≠ some x) := by
  have hl := kvs_length_of_hashes hk
  have h65 : 65 < kvs.length := by omega
  have hset : ∀ x : U32, ∃ shard, KVShard.new .release prg pseed segExp cap0 fp0 seed kvs n m T b = .ok shard ∧
      KVShard.new .release prg pseed segExp cap0 fp0 seed
        (kvs.set 65 { kvs[65] with value := kvs[65].value.set j x }) n m T b = .ok shard := by
    intro x
    refine C100_not_stored prg pseed segExp cap0 fp0 seed kvs _ n m T b hlay hb1 hb hT hk hv ?_ ?_ ?_
    · apply List.ext_getElem
      · simp
      · intro i h1 h2
        simp only [List.getElem_map, List.getElem_set]
        split
        · next h => subst h; rfl
        · rfl
    · intro i hi
      rw [List.getElem?_set_ne (by omega)]
    · intro kv hkv
      rcases List.mem_or_eq_of_mem_set hkv with h | rfl
      · exact hv kv h
      · simpa using hv _ (List.getElem_mem h65)
  obtain ⟨shard, hsh, -⟩ := hset 0#32
  obtain ⟨lay, -, hm, -, -, -, -, -, -, ⟨h0, hlen⟩, -⟩ := kvShard_shape hsh
  have hel : shard.db.entries.length = width T b := by rw [hlen]; exact hv _ (List.getElem_mem h0)
  have hj' : j < shard.db.entries.length := by omega
  -- the value the cells give
  have hcv : ∃ v, v < 2 ^ b ∧ ∀ v', CellValue .release shard.baseParams.filterParams b kvs[65].key j shard.db.entries[j] v' →
      v' = v := by
    by_cases h : ∃ v, CellValue .release shard.baseParams.filterParams b kvs[65].key j shard.db.entries[j] v
    · obtain ⟨v, hv⟩ := h
      refine ⟨v, ?_, fun v' h' => cellValue_unique h' hv⟩
      obtain ⟨_, _, _, _, _, _, _, _, _, e⟩ := hv
      rw [e]
      exact Nat.mod_lt _ (Nat.two_pow_pos b)
    · exact ⟨0, Nat.two_pow_pos b, fun v' h' => (h ⟨v', h'⟩).elim⟩
  obtain ⟨v, hvb, hvu⟩ := hcv
  have h2b : 2 ^ b < 2 ^ 32 := Nat.pow_lt_pow_right (by omega) (by omega)
  have h2 : 2 ≤ 2 ^ b := by
    calc 2 = 2 ^ 1 := rfl
      _ ≤ 2 ^ b := Nat.pow_le_pow_right (by omega) hb1
  obtain ⟨x, hx⟩ : ∃ x : U32, x.toNat = (v + 1) % 2 ^ b := by
    refine ⟨BitVec.ofNat 32 ((v + 1) % 2 ^ b), ?_⟩
    rw [BitVec.toNat_ofNat]
    exact Nat.mod_eq_of_lt ((Nat.mod_lt _ (by omega)).trans h2b)
  have hxv : x.toNat ≠ v := by
    rw [hx]
    intro e
    rcases Nat.lt_or_ge (v + 1) (2 ^ b) with h | h
    · rw [Nat.mod_eq_of_lt h] at e; omega
    · have : v + 1 = 2 ^ b := by omega
      rw [this, Nat.mod_self] at e
      omega
  obtain ⟨shard', hsh', hset'⟩ := hset x
  rw [hsh] at hsh'
  cases hsh'
  refine ⟨h65, x, shard, shard.db.entries[j], by rw [hx]; exact Nat.mod_lt _ (by omega), hsh, hset', rd_ok hj', ?_⟩
  intro tape tape' qp hgen
  obtain ⟨s, t1, e, hs, he, hall⟩ := C39_row_value .release prg pseed segExp cap0 fp0 seed kvs n m T b shard hb1 hb hT64 hsh
    (by omega) tape tape' qp hgen
  refine ⟨s, t1, e, hs, he, fun hwin => ?_⟩
  obtain ⟨qp', q, bytes, resp, row, a1, a2, a2', a3, a4, a5⟩ := hall kvs[65].key
  refine ⟨qp', q, bytes, resp, row, a1, a2, a2', a3, a4, ?_⟩
  have hjr : j < row.length := by omega
  obtain ⟨col, v', hcol, hcell, hiff⟩ := a5 j hjr
  rw [show shard.db.getRow j = .ok shard.db.entries[j] from rd_ok hj'] at hcol
  cases hcol
  have hv' := hvu v' hcell
  have := hiff.2 hwin
  rw [List.getElem?_eq_getElem hjr]
  intro h
  cases h
  exact hxv (this.trans hv')

/-- **C100 (real sizes).** In particular with the sizes the code computes in floating point for 96 pairs. -/
theorem C100_sizes (log : ℚ → ℚ) (hlog : LogAccurate log) :
    bfLayout 96 (bfSegExp log 96) (bfCap0 log 96) = .ok lossyLay := by
  rw [lossy_sizes hlog, lossy_layout]

/-- Non-vacuity of C100: there are 96 keys with these hashes under a given seed, and sizes and logarithms as assumed. -/
example : lossExKeys.map (fun k => mix256 k exSeed) = lossHashes.map Res.ok := by decide +kernel
example : ∃ log : ℚ → ℚ, LogAccurate log := exists_logAccurate

/-- The hypothesis of C04 and C28 that these keys violate: 66 of them share slot 0. -/
example : slotLoad exSeed lossyLay.geom lossExKeys 0 = 66 := by decide +kernel

/-- All hypotheses of C100 on the values (here of 3 digits of 8 bits). -/
example : let kvs : List KeyValue := lossExKeys.map fun k => { key := k, value := [7#32, 255#32, 0#32] }
    kvs.map (fun kv => mix256 kv.key exSeed) = lossHashes.map Res.ok ∧ ∀ kv ∈ kvs, kv.value.length = width 24 8 := by
  refine ⟨by decide +kernel, ?_⟩
  intro kv hkv
  obtain ⟨k, _, rfl⟩ := List.mem_map.1 hkv
  rfl

end Chalamet
