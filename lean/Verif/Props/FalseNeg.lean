import Verif.Lemmas.Fill
import Verif.Lemmas.Agree
import Verif.Props.Hang
import Verif.Props.BFuse
import Verif.Props.Profiles

/-!
# C82: an overloaded slot can make a release build return a filter that loses keys

C40 says that binary fuse filters have no false negatives, assuming in release builds that no slot is shared by 64 or more
keys. The assumption is needed: here are 96 keys, 65 of them sharing a slot, whose filter built by a release build denies
one of its own keys whatever the random initial contents, for every fingerprint width. The counter of the slot wraps around
to 1, so the construction takes the slot for one with a single key and "peels" a hash that belongs to no key.

The initial contents are handled symbolically: every cell is a constant xor a subset of the initial cells.
-/

namespace Chalamet

/-- A cell as a constant and the set (bit mask) of initial cells xored to it. -/
abbrev SymCell := U64 × Nat

/-- The value of a symbolic cell. -/
def SymCell.den (w n : Nat) (fp : Nat → BitVec w) (x : SymCell) : BitVec w :=
  x.1.setWidth w ^^^ xsum (fun j => x.2.testBit j) fp n

/-- The assignment of one stack entry on symbolic cells. -/
def symStep (g : Geom) (S : List SymCell) (e : U64 × Nat) : List SymCell :=
  let i := instrX 64 g e
  let a := S.getD i.a (0#64, 0)
  let b := S.getD i.b (0#64, 0)
  S.set i.c (fingerprint e.1 ^^^ a.1 ^^^ b.1, a.2 ^^^ b.2)

theorem SymCell.den_xor (w n : Nat) (fp : Nat → BitVec w) (k : U64) (a b : SymCell) :
    SymCell.den w n fp (k ^^^ a.1 ^^^ b.1, a.2 ^^^ b.2) = k.setWidth w ^^^ a.den w n fp ^^^ b.den w n fp := by
  unfold SymCell.den
  have e : (fun j => (a.2 ^^^ b.2).testBit j) = fun j => a.2.testBit j ^^ b.2.testBit j := by
    funext j
    exact Nat.testBit_xor ..
  simp only [e, xsum_xor, BitVec.setWidth_xor]
  ac_rfl

theorem symRun_ok {w n : Nat} {g : Geom} {len s k : Nat} (hg : g.WF len s k) (hn : len = n) (fp : Nat → BitVec w)
    (stk : List (U64 × Nat)) (f : Nat → BitVec w) (S : List SymCell) (hS : S.length = n)
    (h : ∀ i < n, f i = (S.getD i (0#64, 0)).den w n fp) :
    ∀ i < n, xrun (stk.map (instrX w g)) f i = ((stk.foldl (symStep g) S).getD i (0#64, 0)).den w n fp := by
  subst hn
  induction stk generalizing f S with
  | nil => exact h
  | cons e stk ih =>
    intro i hi
    have ho := slotsOk hg e.1
    refine ih ((instrX w g e).exec f) (symStep g S e) (by simp [symStep, hS]) ?_ i hi
    intro i hi
    unfold symStep XInstr.exec
    simp only
    rw [getD_set_fun (by rw [hS]; exact slot_lt ho _)]
    by_cases e' : i = slotN g e.1 e.2
    · simp only [instrX, e', if_true]
      rw [SymCell.den_xor, h _ (slot_lt ho _), h _ (slot_lt ho _)]
    · simp only [instrX, e', if_false]
      exact h i hi

/-- The initial symbolic cells. -/
def symInit (n : Nat) : List SymCell := (List.range n).map fun i => (0#64, 2 ^ i)

theorem symInit_den {w n : Nat} (fp : Nat → BitVec w) {i : Nat} (hi : i < n) :
    fp i = ((symInit n).getD i (0#64, 0)).den w n fp := by
  rw [getD_lt (by simp [symInit, hi])]
  simp only [symInit, List.getElem_map, List.getElem_range, SymCell.den]
  have e : (fun j => (2 ^ i).testBit j) = fun j => j == i := by
    funext j
    rw [Nat.testBit_two_pow, Bool.eq_iff_iff, decide_eq_true_iff, beq_iff_eq, eq_comm]
  rw [e, xsum_unit, if_pos hi]
  simp

/-- The fingerprint of a key xor its three cells, symbolically: `contains` tests whether its value is 0. -/
def symLookup (g : Geom) (S : List SymCell) (hash : U64) : SymCell :=
  let c := fun i => S.getD (slotN g hash i) (0#64, 0)
  (fingerprint hash ^^^ (c 0).1 ^^^ (c 1).1 ^^^ (c 2).1, (c 0).2 ^^^ (c 1).2 ^^^ (c 2).2)

theorem symLookup_den {w n : Nat} {g : Geom} {len s k : Nat} (hg : g.WF len s k) (hn : len = n) (seed : U64)
    (fp : Nat → BitVec w) (S : List SymCell) (B : List (BitVec w)) (hB : B.length = n)
    (h : ∀ i < n, B.getD i 0#w = (S.getD i (0#64, 0)).den w n fp) (key : U64) :
    BinaryFuse.contains { seed := seed, geom := g, fingerprints := B } key =
      .ok (decide ((symLookup g S (mix key seed)).den w n fp = 0#w)) := by
  subst hn
  have ho := slotsOk hg (mix key seed)
  have e : ∀ i, rd B (slotN g (mix key seed) i) =
      .ok ((S.getD (slotN g (mix key seed) i) (0#64, 0)).den w len fp) := by
    intro i
    have hl := slot_lt ho i
    rw [rd_ok (by omega), ← h _ hl, getD_lt (by omega)]
  unfold BinaryFuse.contains
  simp only
  have e0 := e 0
  have e1 := e 1
  have e2 := e 2
  have hd : ∀ (f : U64) (a b c : SymCell),
      SymCell.den w len fp (f ^^^ a.1 ^^^ b.1 ^^^ c.1, a.2 ^^^ b.2 ^^^ c.2) =
        f.setWidth w ^^^ (a.den w len fp ^^^ b.den w len fp ^^^ c.den w len fp) := fun f a b c => by
    have h1 := SymCell.den_xor w len fp 0#64 (f ^^^ a.1 ^^^ b.1, a.2 ^^^ b.2) c
    simp only [BitVec.zero_xor, BitVec.setWidth_zero] at h1
    rw [h1, SymCell.den_xor]
    ac_rfl
  unfold symLookup
  simp only [hd]
  simp only [slotN] at e0 e1 e2 ⊢
  rw [e0, Res.bind_ok, e1, Res.bind_ok, e2, Res.bind_ok]

/-- 96 keys, 65 of which share a slot. -/
def lossyKeys : List U64 := [
  6656188530892533055, 738048142734998455, 2897315375501572614, 9228409440521478445, 9706855410616690510,
  5229154308337050035, 1520843786291987795, 7723730114271095529, 7459789264396151316, 8856039396180217603,
  5819011196136357305, 6033697960383604821, 5708852485509944960, 10821506575515332877, 8731741438405053690,
  766081873891868790, 12466821353507980792, 6355279809731813478, 11841641909338246467, 16502174546750293597,
  16091873420925324341, 2155400815232424710, 6124874617385539326, 17478419736371316229, 16636087988898269853,
  14741967213931639939, 10506586872419911736, 12038531902653699315, 108697664944718407, 6095953060129485348,
  5986799058866127260, 7854027612452543653, 18060640120505633775, 359754666857724854, 7674464879289346969,
  16470846614184096606, 2066998756737197967, 12192431374773655433, 17236100902743801614, 3267081880832394764,
  18165999236665503808, 5793754061973210503, 4886229049561389523, 5935465675483391683, 16523590248063356577,
  3074782730639385901, 8787516597775403631, 2486786382528571977, 6930375330557272758, 709753036647826346,
  16522591203382932453, 6002898889823552843, 5672197139264717063, 122937107055494003, 10921774605507098009,
  16369083313319523568, 310819870018906376, 16400891292410341247, 13317099997872705794, 14252614284391375012,
  14662865991902766622, 5910413892972120299, 13205455318850442415, 4940319590377705414, 16696117266410599726,
  12673048821949443775, 13668098264134751468, 11388634693339078519, 977690170770845127, 2362872759402445045,
  4873979567203131060, 12389845561222787990, 2567819972362634146, 17020637921111660850, 14998891963423484233,
  12244415918104101682, 3896143272107347737, 15066782886349461485, 4184107769710624639, 15010375535491400611,
  1157105062465313038, 553629179471728508, 4768645043173904303, 10067130886187998839, 5869378501435635124,
  6680826591868083781, 16026008488241638780, 6831583450965366109, 15394159195852170039, 4935954306409136189,
  6971100879502598114, 12067739821487856761, 15715417564631808095, 913354430151844434, 3502513841278723823,
  15014695183113870006].map (BitVec.ofNat 64)

/-! ### The run of the construction on these keys

Literal states of the run, each checked by evaluating the model in the kernel from the previous one. -/

/-- The layout for 96 keys. -/
def lossyLay : Layout := { geom := { segmentLength := 64, segmentLengthMask := 63, segmentCountLength := 64 }, arrayLen := 192, segmentCount := 1 }

/-- A table of counters and hashes, from numbers. -/
def lossyT (c h : List Nat) : T2 := (c.map (BitVec.ofNat 8), h.map (BitVec.ofNat 64))

/-- A stack, from numbers. -/
def lossyS (s : List (Nat × Nat)) : List (U64 × Nat) := s.map fun e => (BitVec.ofNat 64 e.1, e.2)

/-- The hashes in the order of the counting pass. -/
def lossyRO : List U64 := [
  5035888827373955, 13002232140079086, 13312377901763346, 16499950560995286, 19707414330725000, 21095179658553360,
  27088656036435232, 34354448170071373, 43660563328749133, 43917982081329615, 45614989813942309, 50165340687107644,
  54624552358969850, 60083495138290619, 61914001982838167, 74467258845757317, 77699101272986573, 77972837352648239,
  79698681086023922, 82745551102673593, 87712181105496832, 88726578144001334, 89150214246883677, 94980788331228651,
  95133998754187612, 96699029842900198, 101181603736667850, 104236354850220886, 106899469662698449,
  111477544757124301, 111552945391831804, 128467070351828004, 134157160862400290, 136422694333379792,
  137165692468993870, 142855767409106668, 153280408831540422, 162558435055707670, 167025692938521425,
  167766907692862703, 173528678514775536, 175222115437731369, 175316063919551880, 176706833985892164,
  180117954266418243, 191904439351316545, 192682139793506043, 197896097122899393, 199759412765253293,
  201343041163641661, 201955000424996744, 202261906573593997, 202383160372049880, 220453544392441734,
  221723247332553022, 227129126055195674, 227574210057625428, 235064020889221696, 235655520172448617,
  238770235966563660, 243372391788896718, 246417325417126671, 263606358940951518, 269158240915836886,
  280343010883565145, 2175559045730909090, 2257829802304795670, 3436418244337194080, 3866166221186504777,
  3931578657418832384, 5824379744257283926, 6162303147244791580, 6677077758493023981, 6845248167584248498,
  7248862939505276025, 7459911127541337959, 7619034829573434704, 8129235748126443454, 8278081091680165374,
  9190697339717473598, 9597897984780850841, 10187208162456145697, 10332680410798428425, 10913257484411328572,
  11366279278518450366, 11367437569628382346, 12164404694750118707, 13951643194376277347, 14109715683203930971,
  14570796321539791549, 15074060351934551845, 15579378857721399745, 15875396843383091373, 17520218180822767541,
  17621594357196495815, 18401072982862246898, 1].map (BitVec.ofNat 64)

/-- The tables after counting 32 hashes. -/
def lossyTC32 : T2 := lossyT [
  128, 0, 0, 0, 0, 0, 0, 0, 0, 0, 0, 0, 0, 0, 0, 0, 0, 0, 0, 0, 0, 0, 0, 0, 0, 0, 0, 0, 0, 0, 0, 0, 0, 0, 0, 0, 0, 0,
  0, 0, 0, 0, 0, 0, 0, 0, 0, 0, 0, 0, 0, 0, 0, 0, 0, 0, 0, 0, 0, 0, 0, 0, 0, 0, 0, 5, 0, 0, 0, 0, 0, 0, 0, 0, 0, 0,
  5, 5, 5, 0, 0, 5, 5, 0, 0, 0, 0, 5, 0, 0, 5, 0, 0, 0, 0, 5, 0, 8, 5, 0, 0, 5, 0, 5, 5, 5, 0, 8, 5, 0, 5, 5, 0, 0,
  0, 8, 0, 5, 0, 0, 0, 8, 5, 5, 5, 0, 5, 8, 6, 0, 0, 6, 0, 6, 0, 0, 6, 0, 6, 0, 0, 16, 0, 6, 6, 6, 6, 0, 0, 0, 8, 6,
  0, 0, 0, 0, 6, 6, 0, 0, 6, 0, 0, 0, 6, 6, 6, 0, 0, 0, 0, 6, 0, 0, 6, 6, 0, 0, 6, 0, 0, 0, 6, 0, 0, 6, 6, 6, 8, 0,
  0, 0] [
  77103062687466847, 0, 0, 0, 0, 0, 0, 0, 0, 0, 0, 0, 0, 0, 0, 0, 0, 0, 0, 0, 0, 0, 0, 0, 0, 0, 0, 0, 0, 0, 0, 0, 0,
  0, 0, 0, 0, 0, 0, 0, 0, 0, 0, 0, 0, 0, 0, 0, 0, 0, 0, 0, 0, 0, 0, 0, 0, 0, 0, 0, 0, 0, 0, 0, 0, 21095179658553360,
  0, 0, 0, 0, 0, 0, 0, 0, 0, 0, 79698681086023922, 43917982081329615, 82745551102673593, 0, 0, 87712181105496832,
  45614989813942309, 0, 0, 0, 0, 54624552358969850, 0, 0, 88726578144001334, 0, 0, 0, 0, 27088656036435232, 0,
  5957465300544924, 77972837352648239, 0, 0, 60083495138290619, 0, 19707414330725000, 34354448170071373,
  128467070351828004, 0, 116504394937222478, 50165340687107644, 0, 111552945391831804, 77699101272986573, 0, 0, 0,
  110916167958338763, 0, 89150214246883677, 0, 0, 0, 113595626155061704, 96699029842900198, 106899469662698449,
  13312377901763346, 0, 94980788331228651, 5822910635767864, 87712181105496832, 0, 0, 5035888827373955, 0,
  74467258845757317, 0, 0, 19707414330725000, 0, 101181603736667850, 0, 0, 34083670576264192, 0, 43917982081329615,
  21095179658553360, 106899469662698449, 13312377901763346, 0, 0, 0, 92549155946794112, 61914001982838167, 0, 0, 0,
  0, 95133998754187612, 89150214246883677, 0, 0, 27088656036435232, 0, 0, 0, 128467070351828004, 45614989813942309,
  96699029842900198, 0, 0, 0, 0, 94980788331228651, 0, 0, 13002232140079086, 77972837352648239, 0, 0,
  79698681086023922, 0, 0, 0, 88726578144001334, 0, 0, 82745551102673593, 54624552358969850, 60083495138290619,
  89625370106236096, 0, 0, 0]

/-- The tables after counting 64 hashes. -/
def lossyTC64 : T2 := lossyT [
  0, 0, 0, 0, 0, 0, 0, 0, 0, 0, 0, 0, 0, 0, 0, 0, 0, 0, 0, 0, 0, 0, 0, 0, 0, 0, 0, 0, 0, 0, 0, 0, 0, 0, 0, 0, 0, 0,
  0, 0, 0, 0, 0, 0, 0, 0, 0, 0, 0, 0, 0, 0, 0, 0, 0, 0, 0, 0, 0, 0, 0, 0, 0, 0, 0, 5, 5, 0, 0, 0, 5, 5, 0, 0, 5, 0,
  5, 13, 5, 5, 0, 8, 5, 0, 0, 0, 8, 5, 0, 0, 8, 5, 5, 5, 0, 8, 0, 13, 8, 5, 5, 5, 0, 5, 5, 5, 5, 8, 8, 5, 13, 8, 0,
  0, 0, 8, 0, 5, 0, 0, 0, 8, 8, 5, 8, 8, 5, 21, 8, 8, 0, 8, 6, 6, 8, 0, 14, 0, 6, 0, 6, 22, 8, 8, 8, 8, 6, 0, 6, 0,
  16, 6, 6, 0, 6, 0, 6, 6, 6, 0, 6, 0, 6, 0, 6, 6, 6, 0, 0, 8, 0, 6, 6, 6, 6, 8, 6, 0, 6, 0, 0, 0, 6, 0, 0, 6, 6, 8,
  8, 6, 6, 0] [
  6420420468325211, 0, 0, 0, 0, 0, 0, 0, 0, 0, 0, 0, 0, 0, 0, 0, 0, 0, 0, 0, 0, 0, 0, 0, 0, 0, 0, 0, 0, 0, 0, 0, 0,
  0, 0, 0, 0, 0, 0, 0, 0, 0, 0, 0, 0, 0, 0, 0, 0, 0, 0, 0, 0, 0, 0, 0, 0, 0, 0, 0, 0, 0, 0, 0, 0, 21095179658553360,
  136422694333379792, 0, 0, 0, 167766907692862703, 176706833985892164, 0, 0, 269158240915836886, 0,
  79698681086023922, 98231278707892193, 82745551102673593, 235655520172448617, 0, 66149890279058466,
  45614989813942309, 0, 0, 0, 56032324319651273, 54624552358969850, 0, 0, 287817487691637659, 153280408831540422,
  197896097122899393, 175222115437731369, 0, 193442115550814968, 0, 233531604155658952, 67137767754281155,
  201343041163641661, 235064020889221696, 60083495138290619, 0, 19707414330725000, 34354448170071373,
  128467070351828004, 227129126055195674, 116504394937222478, 261632102913734402, 243372391788896718,
  46145131106788339, 240253060948129243, 0, 0, 0, 110916167958338763, 0, 89150214246883677, 0, 0, 0,
  113595626155061704, 259272953932331371, 106899469662698449, 207788495907935386, 71476610439771562,
  94980788331228651, 114743404205507583, 176907816858495296, 6431462423872896, 0, 175090964746425792,
  176706833985892164, 74467258845757317, 85492443362001728, 0, 64642218299095176, 0, 101181603736667850, 0,
  238770235966563660, 195768917501639053, 182376675899276928, 285825110492377792, 121133487973440704,
  228184378706686080, 13312377901763346, 0, 227574210057625428, 0, 51077816542684480, 61914001982838167,
  202383160372049880, 0, 227129126055195674, 0, 95133998754187612, 89150214246883677, 263606358940951518, 0,
  27088656036435232, 0, 134157160862400290, 0, 128467070351828004, 45614989813942309, 96699029842900198, 0, 0,
  84359924855358784, 0, 94980788331228651, 142855767409106668, 199759412765253293, 13002232140079086,
  234474140047893184, 173528678514775536, 0, 79698681086023922, 0, 0, 0, 88726578144001334, 0, 0, 82745551102673593,
  54624552358969850, 178454020562670912, 89625370106236096, 201343041163641661, 221723247332553022, 0]

/-- The tables after counting all hashes. -/
def lossyTC96 : T2 := lossyT [
  4, 0, 0, 0, 0, 0, 0, 8, 0, 0, 0, 4, 0, 8, 0, 0, 0, 0, 0, 0, 4, 4, 0, 8, 0, 8, 4, 0, 8, 0, 0, 4, 0, 4, 0, 8, 0, 4,
  0, 8, 0, 0, 4, 0, 0, 0, 0, 0, 8, 0, 4, 0, 4, 0, 4, 4, 0, 0, 0, 0, 4, 4, 0, 4, 0, 8, 21, 0, 0, 0, 5, 8, 5, 0, 5, 0,
  5, 13, 8, 8, 0, 8, 5, 8, 0, 0, 13, 5, 0, 8, 8, 8, 8, 8, 0, 8, 5, 13, 8, 5, 5, 5, 5, 5, 5, 8, 5, 8, 13, 8, 16, 13,
  5, 0, 8, 8, 5, 5, 0, 0, 5, 8, 13, 5, 8, 8, 8, 24, 8, 8, 8, 8, 8, 6, 8, 0, 14, 8, 8, 0, 6, 30, 8, 14, 8, 16, 6, 6,
  6, 0, 16, 6, 6, 16, 8, 0, 6, 6, 6, 0, 8, 6, 14, 0, 6, 14, 6, 0, 0, 8, 6, 14, 6, 8, 6, 8, 6, 0, 6, 0, 0, 0, 6, 6, 6,
  6, 14, 8, 8, 6, 8, 0] [
  285192618993306882, 0, 0, 0, 0, 0, 0, 100292308754714548, 0, 0, 0, 3436418244337194080, 0, 227612395858260553, 0,
  0, 0, 0, 0, 0, 5824379744257283926, 6162303147244791580, 0, 168473944383548511, 0, 225126975493208862,
  7619034829573434704, 0, 158046221271996992, 0, 0, 9190697339717473598, 0, 9597897984780850841, 0,
  145581727063973416, 0, 10913257484411328572, 0, 35011707253857332, 0, 0, 12164404694750118707, 0, 0, 0, 0, 0,
  167185384569804344, 0, 14570796321539791549, 0, 15074060351934551845, 0, 15579378857721399745,
  15875396843383091373, 0, 0, 0, 0, 17520218180822767541, 17621594357196495815, 0, 18401072982862246898, 0,
  12149115763267578659, 1403493685220930774, 0, 0, 0, 167766907692862703, 6668983450052877814, 10913257484411328572,
  0, 269158240915836886, 0, 79698681086023922, 98231278707892193, 14632237718022297604, 6021715083528408127, 0,
  66149890279058466, 45614989813942309, 15797755149891030951, 0, 0, 3846197965331676544, 54624552358969850, 0,
  17582366337105401326, 287817487691637659, 15714639369037493511, 7294139070885108390, 18244994648336494043, 0,
  193442115550814968, 9190697339717473598, 233531604155658952, 67137767754281155, 201343041163641661,
  235064020889221696, 60083495138290619, 6162303147244791580, 19707414330725000, 34354448170071373,
  10135443076325272325, 227129126055195674, 116504394937222478, 2130381217087835296, 2032757136590378456,
  17548171887114449990, 11426983403470344529, 3931578657418832384, 0, 745235010617591696, 110916167958338763,
  7248862939505276025, 89150214246883677, 0, 0, 14109715683203930971, 113595626155061704, 16125598276160604614,
  106899469662698449, 207788495907935386, 71476610439771562, 194370556349537202, 6718834480106069266,
  176907816858495296, 6431462423872896, 15975500831277914231, 175090964746425792, 4023025480867477261,
  74467258845757317, 85492443362001728, 0, 64642218299095176, 12006798417797066921, 7555711889662733210, 0,
  238770235966563660, 14656394740002529407, 182376675899276928, 14538369886687225981, 121133487973440704,
  14793781908461048755, 13312377901763346, 13951643194376277347, 227574210057625428, 0, 51077816542684480,
  61914001982838167, 202383160372049880, 11672715543745058280, 16102147599592506551, 0, 95133998754187612,
  89150214246883677, 263606358940951518, 0, 7275880288877158745, 9190697339717473598, 283129782248777058, 0,
  128467070351828004, 4642112852166312245, 96699029842900198, 0, 0, 84359924855358784, 10332680410798428425,
  17090644923217814224, 142855767409106668, 11458547366501087783, 13002232140079086, 234474140047893184,
  173528678514775536, 0, 79698681086023922, 0, 0, 0, 88726578144001334, 15579378857721399745, 9597897984780850841,
  82745551102673593, 12170930516253852880, 178454020562670912, 89625370106236096, 201343041163641661,
  7247793437215702617, 0]

/-- The tables after 40 iterations of the peeling. -/
def lossyTP40 : T2 := lossyT [
  160, 0, 0, 0, 0, 0, 0, 8, 0, 0, 0, 4, 0, 8, 0, 0, 0, 0, 0, 0, 0, 4, 0, 8, 0, 4, 0, 0, 8, 0, 0, 0, 0, 0, 0, 4, 0, 4,
  0, 4, 0, 0, 4, 0, 0, 0, 0, 0, 8, 0, 0, 0, 4, 0, 0, 4, 0, 0, 0, 0, 4, 4, 0, 0, 0, 8, 21, 0, 0, 0, 0, 8, 5, 0, 5, 0,
  0, 5, 5, 5, 0, 8, 5, 8, 0, 0, 13, 5, 0, 5, 5, 5, 5, 5, 0, 5, 0, 8, 5, 0, 5, 5, 5, 5, 5, 5, 5, 8, 13, 8, 16, 8, 5,
  0, 5, 5, 0, 0, 0, 0, 5, 8, 8, 5, 8, 8, 8, 13, 8, 8, 6, 8, 8, 6, 6, 0, 14, 8, 6, 0, 6, 24, 8, 6, 8, 16, 6, 6, 6, 0,
  16, 0, 6, 14, 8, 0, 6, 6, 6, 0, 6, 6, 14, 0, 0, 14, 6, 0, 0, 6, 0, 14, 6, 6, 6, 6, 6, 0, 6, 0, 0, 0, 6, 6, 6, 6,
  14, 8, 8, 6, 6, 0] [
  123870403365380005, 0, 0, 0, 0, 0, 0, 100292308754714548, 0, 0, 0, 3436418244337194080, 0, 227612395858260553, 0,
  0, 0, 0, 0, 0, 0, 6162303147244791580, 0, 168473944383548511, 0, 7459911127541337959, 0, 0, 158046221271996992, 0,
  0, 0, 0, 0, 0, 10187208162456145697, 0, 10913257484411328572, 0, 11366279278518450366, 0, 0, 12164404694750118707,
  0, 0, 0, 0, 0, 167185384569804344, 0, 0, 0, 15074060351934551845, 0, 0, 15875396843383091373, 0, 0, 0, 0,
  17520218180822767541, 17621594357196495815, 0, 0, 0, 12149115763267578659, 1403493685220930774, 0, 0, 0, 0,
  6668983450052877814, 10913257484411328572, 0, 269158240915836886, 0, 0, 43917982081329615, 14570796321539791549,
  235655520172448617, 0, 66149890279058466, 45614989813942309, 15797755149891030951, 0, 0, 3846197965331676544,
  54624552358969850, 0, 7619034829573434704, 199759412765253293, 153280408831540422, 197896097122899393,
  18401072982862246898, 0, 27088656036435232, 0, 169680896499201026, 77972837352648239, 0, 235064020889221696,
  60083495138290619, 6162303147244791580, 19707414330725000, 34354448170071373, 128467070351828004,
  227129126055195674, 116504394937222478, 2130381217087835296, 2032757136590378456, 17548171887114449990,
  240253060948129243, 3931578657418832384, 0, 10332680410798428425, 61914001982838167, 0, 0, 0, 0,
  14109715683203930971, 113595626155061704, 16041304486620003616, 106899469662698449, 207788495907935386,
  71476610439771562, 194370556349537202, 6734129656273872501, 176907816858495296, 6431462423872896,
  5824379744257283926, 175090964746425792, 4023025480867477261, 74467258845757317, 220453544392441734, 0,
  64642218299095176, 12006798417797066921, 101181603736667850, 0, 238770235966563660, 3762835822165595021,
  182376675899276928, 246417325417126671, 121133487973440704, 14793781908461048755, 13312377901763346,
  13951643194376277347, 227574210057625428, 0, 51077816542684480, 0, 202383160372049880, 4341736369037733206,
  16102147599592506551, 0, 95133998754187612, 89150214246883677, 263606358940951518, 0, 7248862939505276025,
  9190697339717473598, 283129782248777058, 0, 0, 4642112852166312245, 96699029842900198, 0, 0, 175222115437731369, 0,
  17090644923217814224, 142855767409106668, 11367437569628382346, 13002232140079086, 167766907692862703,
  173528678514775536, 0, 79698681086023922, 0, 0, 0, 88726578144001334, 15579378857721399745, 9597897984780850841,
  82745551102673593, 12170930516253852880, 178454020562670912, 89625370106236096, 201343041163641661,
  221723247332553022, 0]

/-- The tables after 80 iterations of the peeling. -/
def lossyTP80 : T2 := lossyT [
  64, 0, 0, 0, 0, 0, 0, 8, 0, 0, 0, 4, 0, 4, 0, 0, 0, 0, 0, 0, 0, 0, 0, 4, 0, 4, 0, 0, 8, 0, 0, 0, 0, 0, 0, 4, 0, 4,
  0, 4, 0, 0, 4, 0, 0, 0, 0, 0, 4, 0, 0, 0, 4, 0, 0, 0, 0, 0, 0, 0, 0, 4, 0, 0, 0, 8, 16, 0, 0, 0, 0, 5, 5, 0, 5, 0,
  0, 5, 5, 5, 0, 5, 5, 8, 0, 0, 5, 5, 0, 5, 5, 5, 5, 5, 0, 5, 0, 5, 5, 0, 5, 5, 5, 0, 5, 5, 5, 8, 8, 8, 8, 8, 5, 0,
  5, 5, 0, 0, 0, 0, 0, 5, 5, 5, 5, 5, 8, 8, 6, 6, 6, 8, 6, 6, 6, 0, 6, 6, 6, 0, 6, 8, 8, 6, 8, 8, 6, 6, 6, 0, 14, 0,
  6, 14, 6, 0, 6, 6, 6, 0, 6, 6, 8, 0, 0, 8, 6, 0, 0, 6, 0, 8, 6, 6, 6, 6, 6, 0, 6, 0, 0, 0, 6, 6, 6, 6, 6, 6, 8, 6,
  6, 0] [
  231502773255563713, 0, 0, 0, 0, 0, 0, 100292308754714548, 0, 0, 0, 3436418244337194080, 0, 3866166221186504777, 0,
  0, 0, 0, 0, 0, 0, 0, 0, 6677077758493023981, 0, 7459911127541337959, 0, 0, 158046221271996992, 0, 0, 0, 0, 0, 0,
  10187208162456145697, 0, 10913257484411328572, 0, 11366279278518450366, 0, 0, 12164404694750118707, 0, 0, 0, 0, 0,
  14109715683203930971, 0, 0, 0, 15074060351934551845, 0, 0, 0, 0, 0, 0, 0, 0, 17621594357196495815, 0, 0, 0,
  12149115763267578659, 15196279301370788277, 0, 0, 0, 0, 6845248167584248498, 10913257484411328572, 0,
  269158240915836886, 0, 0, 43917982081329615, 14570796321539791549, 235655520172448617, 0, 134157160862400290,
  45614989813942309, 15797755149891030951, 0, 0, 175316063919551880, 54624552358969850, 0, 7619034829573434704,
  199759412765253293, 153280408831540422, 197896097122899393, 18401072982862246898, 0, 27088656036435232, 0,
  104236354850220886, 77972837352648239, 0, 235064020889221696, 60083495138290619, 6162303147244791580, 0,
  34354448170071373, 128467070351828004, 227129126055195674, 116504394937222478, 2198630113088421278,
  2032757136590378456, 284774074939524799, 240253060948129243, 3931578657418832384, 0, 10332680410798428425,
  61914001982838167, 0, 0, 0, 0, 0, 43660563328749133, 202261906573593997, 106899469662698449, 201955000424996744,
  167025692938521425, 194370556349537202, 134494351492642968, 87712181105496832, 191904439351316545,
  5824379744257283926, 175090964746425792, 176706833985892164, 74467258845757317, 220453544392441734, 0,
  19707414330725000, 17520218180822767541, 101181603736667850, 0, 238770235966563660, 42791720119701248,
  182376675899276928, 246417325417126671, 121133487973440704, 14872221017588179763, 13312377901763346,
  13951643194376277347, 227574210057625428, 0, 128112249207950870, 0, 202383160372049880, 4341736369037733206,
  15875396843383091373, 0, 95133998754187612, 89150214246883677, 263606358940951518, 0, 7248862939505276025,
  9190697339717473598, 158046221271996992, 0, 0, 2203155201406710663, 96699029842900198, 0, 0, 175222115437731369, 0,
  3378241408876673419, 142855767409106668, 11367437569628382346, 13002232140079086, 167766907692862703,
  173528678514775536, 0, 79698681086023922, 0, 0, 0, 88726578144001334, 15579378857721399745, 9597897984780850841,
  82745551102673593, 17621594357196495815, 192682139793506043, 89625370106236096, 201343041163641661,
  221723247332553022, 0]

/-- The tables after the peeling. -/
def lossyTPE : T2 := lossyT [
  0, 0, 0, 0, 0, 0, 0, 4, 0, 0, 0, 0, 0, 4, 0, 0, 0, 0, 0, 0, 0, 0, 0, 4, 0, 4, 0, 0, 8, 0, 0, 0, 0, 0, 0, 4, 0, 0,
  0, 4, 0, 0, 0, 0, 0, 0, 0, 0, 4, 0, 0, 0, 0, 0, 0, 0, 0, 0, 0, 0, 0, 0, 0, 0, 0, 5, 5, 0, 0, 0, 0, 5, 5, 0, 0, 0,
  0, 5, 5, 5, 0, 5, 5, 5, 0, 0, 5, 5, 0, 5, 5, 5, 5, 5, 0, 5, 0, 5, 5, 0, 5, 5, 5, 0, 5, 5, 5, 5, 5, 5, 5, 5, 5, 0,
  5, 5, 0, 0, 0, 0, 0, 5, 5, 5, 5, 5, 5, 5, 6, 6, 6, 6, 6, 6, 6, 0, 6, 6, 6, 0, 6, 6, 6, 6, 248, 6, 6, 6, 6, 0, 6, 0,
  6, 6, 6, 0, 6, 6, 6, 0, 6, 6, 8, 0, 0, 6, 6, 0, 0, 6, 0, 6, 6, 6, 6, 6, 6, 0, 6, 0, 0, 0, 6, 6, 6, 6, 6, 6, 6, 6,
  6, 0] [
  158046221271996992, 0, 0, 0, 0, 0, 0, 2257829802304795670, 0, 0, 0, 0, 0, 3866166221186504777, 0, 0, 0, 0, 0, 0, 0,
  0, 0, 6677077758493023981, 0, 7459911127541337959, 0, 0, 158046221271996992, 0, 0, 0, 0, 0, 0,
  10187208162456145697, 0, 0, 0, 11366279278518450366, 0, 0, 0, 0, 0, 0, 0, 0, 14109715683203930971, 0, 0, 0, 0, 0,
  0, 0, 0, 0, 0, 0, 0, 0, 0, 0, 0, 21095179658553360, 276361718656429712, 0, 0, 0, 0, 6845248167584248498,
  10913257484411328572, 0, 0, 0, 0, 43917982081329615, 14570796321539791549, 235655520172448617, 0,
  134157160862400290, 45614989813942309, 3436418244337194080, 0, 0, 175316063919551880, 54624552358969850, 0,
  7619034829573434704, 199759412765253293, 153280408831540422, 197896097122899393, 18401072982862246898, 0,
  27088656036435232, 0, 104236354850220886, 77972837352648239, 0, 235064020889221696, 60083495138290619,
  6162303147244791580, 0, 34354448170071373, 128467070351828004, 227129126055195674, 111477544757124301,
  50165340687107644, 243372391788896718, 180117954266418243, 162558435055707670, 3931578657418832384, 0,
  10332680410798428425, 61914001982838167, 0, 0, 0, 0, 0, 43660563328749133, 202261906573593997, 106899469662698449,
  201955000424996744, 167025692938521425, 280343010883565145, 16499950560995286, 87712181105496832,
  191904439351316545, 5824379744257283926, 5035888827373955, 176706833985892164, 74467258845757317,
  220453544392441734, 0, 19707414330725000, 17520218180822767541, 101181603736667850, 0, 238770235966563660,
  77699101272986573, 137165692468993870, 246417325417126671, 158046221271996992, 15074060351934551845,
  13312377901763346, 13951643194376277347, 227574210057625428, 0, 269158240915836886, 0, 202383160372049880,
  12164404694750118707, 15875396843383091373, 0, 95133998754187612, 89150214246883677, 263606358940951518, 0,
  7248862939505276025, 9190697339717473598, 158046221271996992, 0, 0, 2175559045730909090, 96699029842900198, 0, 0,
  175222115437731369, 0, 94980788331228651, 142855767409106668, 11367437569628382346, 13002232140079086,
  167766907692862703, 173528678514775536, 0, 79698681086023922, 0, 0, 0, 88726578144001334, 15579378857721399745,
  9597897984780850841, 82745551102673593, 17621594357196495815, 192682139793506043, 111552945391831804,
  201343041163641661, 221723247332553022, 0]

/-- The stack after 40 iterations of the peeling. -/
def lossySP40 : List (U64 × Nat) := lossyS [
  (7459911127541337959, 0), (7248862939505276025, 2), (27088656036435232, 1), (202383160372049880, 2),
  (61914001982838167, 1), (95133998754187612, 2), (89150214246883677, 2), (246417325417126671, 2),
  (43917982081329615, 1), (263606358940951518, 2), (9190697339717473598, 2), (96699029842900198, 2),
  (167766907692862703, 2), (77972837352648239, 1), (142855767409106668, 2), (13002232140079086, 2),
  (173528678514775536, 2), (79698681086023922, 2), (101181603736667850, 2), (7619034829573434704, 1),
  (11366279278518450366, 0), (11367437569628382346, 2), (199759412765253293, 1), (88726578144001334, 2),
  (220453544392441734, 2), (153280408831540422, 1), (15579378857721399745, 2), (128467070351828004, 1),
  (18401072982862246898, 1), (175222115437731369, 2), (235655520172448617, 1), (5824379744257283926, 2),
  (10187208162456145697, 0), (10332680410798428425, 1), (9597897984780850841, 2), (14570796321539791549, 1),
  (82745551102673593, 2), (201343041163641661, 2)]

/-- The stack after 80 iterations of the peeling. -/
def lossySP80 : List (U64 × Nat) := lossyS [
  (54624552358969850, 1), (134157160862400290, 1), (87712181105496832, 2), (235064020889221696, 1),
  (167025692938521425, 1), (192682139793506043, 2), (60083495138290619, 1), (17520218180822767541, 2),
  (6162303147244791580, 1), (34354448170071373, 1), (202261906573593997, 1), (15875396843383091373, 2),
  (227129126055195674, 1), (19707414330725000, 2), (175316063919551880, 1), (6677077758493023981, 0),
  (6845248167584248498, 1), (176706833985892164, 2), (3866166221186504777, 0), (3931578657418832384, 1),
  (106899469662698449, 1), (43660563328749133, 1), (74467258845757317, 2), (238770235966563660, 2),
  (201955000424996744, 1), (13312377901763346, 2), (14109715683203930971, 0), (13951643194376277347, 2),
  (104236354850220886, 1), (227574210057625428, 2), (191904439351316545, 2), (197896097122899393, 1),
  (221723247332553022, 2), (7459911127541337959, 0), (7248862939505276025, 2), (27088656036435232, 1),
  (202383160372049880, 2), (61914001982838167, 1), (95133998754187612, 2), (89150214246883677, 2),
  (246417325417126671, 2), (43917982081329615, 1), (263606358940951518, 2), (9190697339717473598, 2),
  (96699029842900198, 2), (167766907692862703, 2), (77972837352648239, 1), (142855767409106668, 2),
  (13002232140079086, 2), (173528678514775536, 2), (79698681086023922, 2), (101181603736667850, 2),
  (7619034829573434704, 1), (11366279278518450366, 0), (11367437569628382346, 2), (199759412765253293, 1),
  (88726578144001334, 2), (220453544392441734, 2), (153280408831540422, 1), (15579378857721399745, 2),
  (128467070351828004, 1), (18401072982862246898, 1), (175222115437731369, 2), (235655520172448617, 1),
  (5824379744257283926, 2), (10187208162456145697, 0), (10332680410798428425, 1), (9597897984780850841, 2),
  (14570796321539791549, 1), (82745551102673593, 2), (201343041163641661, 2)]

/-- The stack after the peeling. -/
def lossySPE : List (U64 × Nat) := lossyS [
  (276361718656429712, 1), (136422694333379792, 0), (136422694333379792, 0), (21095179658553360, 1),
  (12164404694750118707, 2), (10913257484411328572, 1), (269158240915836886, 2), (16499950560995286, 1),
  (137165692468993870, 2), (243372391788896718, 1), (15074060351934551845, 2), (2257829802304795670, 0),
  (162558435055707670, 1), (77699101272986573, 2), (111477544757124301, 1), (5035888827373955, 2),
  (180117954266418243, 1), (111552945391831804, 2), (50165340687107644, 1), (2175559045730909090, 2),
  (45614989813942309, 1), (280343010883565145, 1), (94980788331228651, 2), (3436418244337194080, 1),
  (17621594357196495815, 2), (54624552358969850, 1), (134157160862400290, 1), (87712181105496832, 2),
  (235064020889221696, 1), (167025692938521425, 1), (192682139793506043, 2), (60083495138290619, 1),
  (17520218180822767541, 2), (6162303147244791580, 1), (34354448170071373, 1), (202261906573593997, 1),
  (15875396843383091373, 2), (227129126055195674, 1), (19707414330725000, 2), (175316063919551880, 1),
  (6677077758493023981, 0), (6845248167584248498, 1), (176706833985892164, 2), (3866166221186504777, 0),
  (3931578657418832384, 1), (106899469662698449, 1), (43660563328749133, 1), (74467258845757317, 2),
  (238770235966563660, 2), (201955000424996744, 1), (13312377901763346, 2), (14109715683203930971, 0),
  (13951643194376277347, 2), (104236354850220886, 1), (227574210057625428, 2), (191904439351316545, 2),
  (197896097122899393, 1), (221723247332553022, 2), (7459911127541337959, 0), (7248862939505276025, 2),
  (27088656036435232, 1), (202383160372049880, 2), (61914001982838167, 1), (95133998754187612, 2),
  (89150214246883677, 2), (246417325417126671, 2), (43917982081329615, 1), (263606358940951518, 2),
  (9190697339717473598, 2), (96699029842900198, 2), (167766907692862703, 2), (77972837352648239, 1),
  (142855767409106668, 2), (13002232140079086, 2), (173528678514775536, 2), (79698681086023922, 2),
  (101181603736667850, 2), (7619034829573434704, 1), (11366279278518450366, 0), (11367437569628382346, 2),
  (199759412765253293, 1), (88726578144001334, 2), (220453544392441734, 2), (153280408831540422, 1),
  (15579378857721399745, 2), (128467070351828004, 1), (18401072982862246898, 1), (175222115437731369, 2),
  (235655520172448617, 1), (5824379744257283926, 2), (10187208162456145697, 0), (10332680410798428425, 1),
  (9597897984780850841, 2), (14570796321539791549, 1), (82745551102673593, 2), (201343041163641661, 2)]

/-- The queue before the peeling. -/
def lossyQ : List Nat := [
  189, 185, 184, 183, 182, 178, 176, 174, 172, 170, 166, 164, 161, 158, 157, 156, 152, 151, 148, 147, 146, 140, 133,
  123, 120, 117, 116, 112, 106, 104, 103, 102, 101, 100, 99, 96, 87, 82, 76, 74, 72, 70, 63, 61, 60, 55, 54, 52, 50,
  42, 37, 33, 31, 26, 21, 20, 11, 0]

/-- The queue after 40 iterations of the peeling. -/
def lossyQ40 : List Nat := [
  190, 92, 151, 148, 147, 146, 140, 133, 123, 120, 117, 116, 112, 106, 104, 103, 102, 101, 100, 99, 96, 87, 82, 76,
  74, 72, 70, 63, 61, 60, 55, 54, 52, 50, 42, 37, 33, 31, 26, 21, 20, 11, 0]

/-- The queue after 80 iterations of the peeling. -/
def lossyQ80 : List Nat := [
  186, 82, 76, 74, 72, 70, 63, 61, 60, 55, 54, 52, 50, 42, 37, 33, 31, 26, 21, 20, 11, 0]

theorem lossy_layout : bfLayout 96 6 157 = .ok lossyLay := by decide +kernel

theorem lossy_bucket :
    (foldRes (bucketStep 1) (startPosInit 96 1, (BState.init 96 192).reverseOrder)
      (lossyKeys.map fun k => mix k firstSeed)) = .ok ([96, 48], lossyRO) := by decide +kernel

theorem lossy_count1 :
    foldRes (countStep .release lossyLay.geom)
      { t := ((BState.init 96 192).t2count, (BState.init 96 192).t2hash), duplicates := 0, error := false }
      (lossyRO.take 32) = .ok { t := lossyTC32, duplicates := 0, error := false } := by decide +kernel

theorem lossy_count2 :
    foldRes (countStep .release lossyLay.geom) { t := lossyTC32, duplicates := 0, error := false }
      ((lossyRO.drop 32).take 32) = .ok { t := lossyTC64, duplicates := 0, error := true } := by decide +kernel

theorem lossy_count3 :
    foldRes (countStep .release lossyLay.geom) { t := lossyTC64, duplicates := 0, error := true }
      ((lossyRO.drop 64).take 32) = .ok { t := lossyTC96, duplicates := 0, error := false } := by decide +kernel

theorem lossy_take : lossyRO.take 96 = lossyRO.take 32 ++ ((lossyRO.drop 32).take 32 ++ (lossyRO.drop 64).take 32) := by
  rw [show (lossyRO.drop 64) = (lossyRO.drop 32).drop 32 by rw [List.drop_drop], ← List.take_add, ← List.take_add]

theorem lossy_queue : foldRes (enqueueStep 192 lossyTC96.1) [] (List.range 192) = .ok lossyQ := by decide +kernel

/-- `n` iterations of the peeling loop. -/
def peelIter (prof : Profile) (g : Geom) (capacity size : Nat) : Nat → PState → Res PState
  | 0, s => .ok s
  | n + 1, s =>
    match s.q with
    | [] => .panic
    | index :: q => do
      let s' ← peelStep prof g capacity size index { s with q := q }
      peelIter prof g capacity size n s'

theorem peelLoop_of_iter {prof : Profile} {g : Geom} {capacity size n m : Nat} {s s' : PState}
    (h : peelIter prof g capacity size n s = .ok s') :
    peelLoop prof g capacity size (n + m) s = peelLoop prof g capacity size m s' := by
  induction n generalizing s with
  | zero =>
    simp only [peelIter, Res.ok.injEq] at h
    rw [h, Nat.zero_add]
  | succ n ih =>
    rw [show n + 1 + m = (n + m) + 1 by omega, peelLoop]
    rw [peelIter] at h
    cases hq : s.q with
    | nil => simp [hq] at h
    | cons i q =>
      simp only [hq] at h ⊢
      cases hs : peelStep prof g capacity size i { s with q := q } with
      | ok s1 =>
        rw [hs, Res.bind_ok] at h
        rw [Res.bind_ok]
        exact ih h
      | err e => simp [hs] at h
      | panic => simp [hs] at h
      | diverge => simp [hs] at h

theorem lossy_peel1 : peelIter .release lossyLay.geom 192 96 40 { q := lossyQ, t := lossyTC96, stk := [] } =
    .ok { q := lossyQ40, t := lossyTP40, stk := lossySP40 } := by decide +kernel

theorem lossy_peel2 : peelIter .release lossyLay.geom 192 96 40 { q := lossyQ40, t := lossyTP40, stk := lossySP40 } =
    .ok { q := lossyQ80, t := lossyTP80, stk := lossySP80 } := by decide +kernel

theorem lossy_peel3 : peelLoop .release lossyLay.geom 192 96 304 { q := lossyQ80, t := lossyTP80, stk := lossySP80 } =
    .ok { q := [], t := lossyTPE, stk := lossySPE } := by decide +kernel

theorem attempt_of_stages {lay : Layout} {hashes ro r1 r2 r3 : List U64} {st : BState} {sp q q1 q2 : List Nat}
    {bb n1 n2 n3 size len : Nat}
    {t1 t2 t3 u1 u2 u3 : T2} {b1 b2 : Bool} {s1 s2 s3 : List (U64 × Nat)}
    (hbb : blockBits lay.segmentCount = bb) (hl : lay.arrayLen = len)
    (h0 : foldRes (bucketStep bb) (startPosInit size bb, st.reverseOrder) hashes = .ok (sp, ro))
    (h1 : foldRes (countStep .release lay.geom) { t := (st.t2count, st.t2hash), duplicates := 0, error := false } r1 =
      .ok { t := t1, duplicates := 0, error := b1 })
    (h2 : foldRes (countStep .release lay.geom) { t := t1, duplicates := 0, error := b1 } r2 =
      .ok { t := t2, duplicates := 0, error := b2 })
    (h3 : foldRes (countStep .release lay.geom) { t := t2, duplicates := 0, error := b2 } r3 =
      .ok { t := t3, duplicates := 0, error := false })
    (hr : ro.take size = r1 ++ (r2 ++ r3))
    (hq : foldRes (enqueueStep len t3.1) [] (List.range len) = .ok q)
    (hf : len + 2 * size = n1 + (n2 + n3))
    (p1 : peelIter .release lay.geom len size n1 { q := q, t := t3, stk := [] } = .ok { q := q1, t := u1, stk := s1 })
    (p2 : peelIter .release lay.geom len size n2 { q := q1, t := u1, stk := s1 } = .ok { q := q2, t := u2, stk := s2 })
    (p3 : peelLoop .release lay.geom len size n3 { q := q2, t := u2, stk := s2 } = .ok { q := [], t := u3, stk := s3 })
    (hs : s3.length = size) :
    attempt .release lay size hashes st = .ok (.done s3) := by
  subst hbb hl
  unfold attempt
  simp only
  rw [h0]
  simp only [Res.bind_ok]
  rw [hr, foldRes_append, h1, Res.bind_ok, foldRes_append, h2, Res.bind_ok, h3]
  simp only [Res.bind_ok]
  rw [if_neg (by simp), hq, Res.bind_ok, hf, peelLoop_of_iter p1, peelLoop_of_iter p2, p3, Res.bind_ok]
  simp only
  rw [if_pos (by omega)]

theorem lossy_stack_length : lossySPE.length = 96 := by decide +kernel

theorem lossy_block_bits : blockBits lossyLay.segmentCount = 1 := by decide +kernel

/-- The construction succeeds on these keys. -/
theorem lossy_attempt : attempt .release lossyLay 96 (lossyKeys.map fun k => mix k firstSeed) (BState.init 96 192) =
    .ok (.done lossySPE) :=
  attempt_of_stages (n1 := 40) (n2 := 40) (n3 := 304) (len := 192) lossy_block_bits rfl lossy_bucket lossy_count1
    lossy_count2 lossy_count3 lossy_take lossy_queue rfl lossy_peel1 lossy_peel2 lossy_peel3 lossy_stack_length

/-- The lookups of two of the keys have different lowest bits whatever the initial contents. -/
theorem lossy_lookup :
    let S := lossySPE.foldl (symStep lossyLay.geom) (symInit 192)
    let a := symLookup lossyLay.geom S (mix 15066782886349461485#64 firstSeed)
    let b := symLookup lossyLay.geom S (mix 4184107769710624639#64 firstSeed)
    (lossySPE.all (fun e => e.2 < 3) && a.2 == b.2 && (a.1 ^^^ b.1).getLsbD 0) = true := by decide +kernel

/-- **C82.** A release build turns these 96 different keys into a filter that denies one of them, for every fingerprint
width and whatever the initial contents of the cells. -/
theorem C82_lost_key (w : Nat) (hw : 0 < w) (fp0 : Nat → BitVec w) :
    lossyKeys.Nodup ∧ ∃ f, BinaryFuse.tryFrom w .release 6 157 fp0 lossyKeys = .ok f ∧
      ∃ k ∈ lossyKeys, f.contains k = .ok false := by
  refine ⟨by decide +kernel, ?_⟩
  have hlay := lossy_layout
  have hat := lossy_attempt
  have hc := lossy_lookup
  have hlen : lossyKeys.length = 96 := by decide +kernel
  rw [show 192 = lossyLay.arrayLen from rfl] at hat hc
  generalize lossySPE = stk at hat hc
  generalize lossyLay = lay at hlay hat hc
  simp only [Bool.and_eq_true, List.all_eq_true, decide_eq_true_eq, beq_iff_eq] at hc
  obtain ⟨⟨hf, hm⟩, hb⟩ := hc
  obtain ⟨s, _, hg⟩ := bfLayout_wf hlay
  have ho := fun h => slotsOk hg h
  obtain ⟨B, hB1, hB2, hB3⟩ := fold_xrun (n := lay.arrayLen) (assignStepX lay.geom) (instrX w lay.geom) stk
    (by
      rintro ⟨h, f⟩ he
      exact ⟨slot_lt (ho h) _, fun B hB => assignStepX_eq (ho h) (hf _ he) hB⟩)
    ((List.range lay.arrayLen).map fp0) (by simp)
  have hsym := symRun_ok (w := w) hg rfl fp0 stk (fun s => ((List.range lay.arrayLen).map fp0).getD s 0#w)
    (symInit lay.arrayLen) (by simp [symInit]) (by
      intro i hi
      rw [← symInit_den fp0 hi, getD_lt (by simpa using hi)]
      simp)
  have hcells : ∀ i < lay.arrayLen, B.getD i 0#w =
      ((stk.foldl (symStep lay.geom) (symInit lay.arrayLen)).getD i (0#64, 0)).den w lay.arrayLen fp0 :=
    fun i hi => by rw [hB3, hsym i hi]
  refine ⟨{ seed := firstSeed, geom := lay.geom, fingerprints := B }, ?_, ?_⟩
  · unfold BinaryFuse.tryFrom bfuseXFromImpl
    rw [if_neg (by simp), hlen, hlay, Res.bind_ok, bfxLoop, hlen]
    unfold firstSeed at hat
    rw [hat, Res.bind_ok]
    simp only [Res.bind_ok]
    rw [hB1]
    rfl
  · have h1 := symLookup_den hg rfl firstSeed fp0 _ B hB2 hcells 15066782886349461485#64
    have h2 := symLookup_den hg rfl firstSeed fp0 _ B hB2 hcells 4184107769710624639#64
    generalize symLookup lay.geom _ (mix 15066782886349461485#64 firstSeed) = a at h1 hm hb
    generalize symLookup lay.geom _ (mix 4184107769710624639#64 firstSeed) = b at h2 hm hb
    by_cases ea : a.den w lay.arrayLen fp0 = 0#w
    · refine ⟨4184107769710624639#64, by decide +kernel, ?_⟩
      rw [h2]
      congr 1
      rw [decide_eq_false_iff_not]
      intro eb
      unfold SymCell.den at ea eb
      rw [hm] at ea
      have e : a.1.setWidth w = b.1.setWidth w := by
        rw [BitVec.xor_eq_zero_iff] at ea eb
        rw [ea, eb]
      have e' := congrArg (fun x => x.getLsbD 0) e
      simp only [BitVec.getLsbD_setWidth, hw, decide_true, Bool.true_and] at e'
      rw [BitVec.getLsbD_xor, e'] at hb
      simp at hb
    · refine ⟨15066782886349461485#64, by decide +kernel, ?_⟩
      rw [h1]
      simp [ea]

/-- The layout the code computes for 96 keys does not depend on the rounding errors of the logarithm. -/
theorem lossy_sizes {log : ℚ → ℚ} (hlog : LogAccurate log) :
    bfLayout 96 (bfSegExp log 96) (bfCap0 log 96) = bfLayout 96 6 157 := by
  have hl3 := log_333
  have hl : 0 < Real.log 96 := Real.log_pos (by norm_num)
  have h1 : 94 * Real.log 3.33 ≤ 25 * Real.log 96 := by
    have : Real.log ((3.33 : ℝ) ^ 94) ≤ Real.log ((96 : ℝ) ^ 25) := Real.log_le_log (by norm_num) (by norm_num)
    rw [Real.log_pow, Real.log_pow] at this
    exact_mod_cast this
  have h2 : Real.log 96 ≤ 4 * Real.log 3.33 := by
    have : Real.log (96 : ℝ) ≤ Real.log ((3.33 : ℝ) ^ 4) := Real.log_le_log (by norm_num) (by norm_num)
    rw [Real.log_pow] at this
    exact_mod_cast this
  have h3 : 2 * Real.log 96 ≤ Real.log 1000000 := by
    have : Real.log ((96 : ℝ) ^ 2) ≤ Real.log (1000000 : ℝ) := Real.log_le_log (by norm_num) (by norm_num)
    rw [Real.log_pow] at this
    exact_mod_cast this
  have h4 : Real.log 1000000 ≤ 4 * Real.log 96 := by
    have : Real.log (1000000 : ℝ) ≤ Real.log ((96 : ℝ) ^ 4) := Real.log_le_log (by norm_num) (by norm_num)
    rw [Real.log_pow] at this
    exact_mod_cast this
  have e6 : bfSegExp log 96 = 6 := by
    obtain ⟨a, b⟩ := bfSegExp_accurate hlog (n := 96) (by norm_num) (by norm_num)
    have q1 : 3.76 ≤ Real.log 96 / Real.log 3.33 := by
      rw [le_div_iff₀ (by linarith)]
      linarith
    have q2 : Real.log 96 / Real.log 3.33 ≤ 4 := by
      rw [div_le_iff₀ (by linarith)]
      linarith
    unfold idealExp at a b
    push_cast at a b
    have b' : (5 : ℝ) < bfSegExp log 96 := by norm_num at b q1; linarith
    have a' : (bfSegExp log 96 : ℝ) < 7 := by norm_num at a q2; linarith
    have b'' : 5 < bfSegExp log 96 := by exact_mod_cast b'
    have a'' : bfSegExp log 96 < 7 := by exact_mod_cast a'
    omega
  have ec : 128 < bfCap0 log 96 ∧ bfCap0 log 96 ≤ 192 := by
    have q1 : 2 ≤ Real.log 1000000 / Real.log 96 := by rw [le_div_iff₀ hl]; exact h3
    have q2 : Real.log 1000000 / Real.log 96 ≤ 4 := by rw [div_le_iff₀ hl]; exact h4
    have hi : idealCap 96 = 96 * (0.875 + 0.25 * (Real.log 1000000 / Real.log 96)) := by
      unfold idealCap
      rw [mul_div_assoc, max_eq_right]
      · push_cast; rfl
      · push_cast; linarith
    have := bfCap0_accurate hlog (n := 96) (by norm_num) (by norm_num) (by rw [hi]; norm_num; linarith)
    rw [abs_le, hi] at this
    obtain ⟨a, b⟩ := this
    have a' : (128 : ℝ) < bfCap0 log 96 := by linarith
    have b' : (bfCap0 log 96 : ℝ) < 192 := by linarith
    exact ⟨by exact_mod_cast a', le_of_lt (by exact_mod_cast b')⟩
  rw [e6]
  generalize bfCap0 log 96 = c at ec
  have hc : (c + 64 - 1) / 64 = 3 := by omega
  have hs : segmentLength 96 6 = 64 := rfl
  unfold bfLayout
  simp only [hs, show (96 : Nat) > 1 from by norm_num, if_true, hc]
  rw [if_neg (by norm_num; omega), if_neg (by norm_num), if_neg (by norm_num)]

/-- **C82 (real sizes).** In particular with the sizes the code computes in floating point for 96 keys; and a debug build
panics on these keys. -/
theorem C82_lost_key_sizes (log : ℚ → ℚ) (hlog : LogAccurate log) (w : Nat) (hw : 0 < w) (fp0 : Nat → BitVec w) :
    lossyKeys.length = 96 ∧ lossyKeys.Nodup ∧
    (∃ f, BinaryFuse.tryFrom w .release (bfSegExp log 96) (bfCap0 log 96) fp0 lossyKeys = .ok f ∧
      ∃ k ∈ lossyKeys, f.contains k = .ok false) ∧
    BinaryFuse.tryFrom w .debug (bfSegExp log 96) (bfCap0 log 96) fp0 lossyKeys = .panic := by
  have hlen : lossyKeys.length = 96 := by decide +kernel
  obtain ⟨hnd, f, hf, k, hk, hc⟩ := C82_lost_key w hw fp0
  have e : ∀ prof, BinaryFuse.tryFrom w prof (bfSegExp log 96) (bfCap0 log 96) fp0 lossyKeys =
      BinaryFuse.tryFrom w prof 6 157 fp0 lossyKeys := by
    intro prof
    unfold BinaryFuse.tryFrom bfuseXFromImpl
    rw [hlen, lossy_sizes hlog]
  refine ⟨hlen, hnd, ⟨f, by rw [e]; exact hf, k, hk, hc⟩, ?_⟩
  rw [e]
  rcases Agree.binaryFuse w 6 157 fp0 lossyKeys with h | h
  · exact h
  · rw [hf] at h
    have := C40_no_false_negatives w .debug 6 157 fp0 lossyKeys f h (.inl rfl) k hk
    rw [hc] at this
    cases this

/-- The hypothesis of C40 that these keys violate: in the first round, 65 of them share a slot. -/
example : slotLoadX lossyLay.geom (splitmixSeed 1#64 0) lossyKeys 0 = 65 := by decide +kernel

/-- Non-vacuity of C82: there are accurate logarithms. -/
example : ∃ log : ℚ → ℚ, LogAccurate log := exists_logAccurate

end Chalamet
