import Verif.Prim
/-!
# `bijective_hash.hpp`: model of `Xorshift` and `MultiplicativeHash`
-/
namespace SC

/-- `PRIME_TABLE`, bijective_hash.hpp:10-76.  Row `w` holds the multipliers for stages 0, 1, 2 and
then their inverses.  Copied mechanically from the source. -/
def primeTable : List (List Nat × List Nat) := [
  ([0, 0, 0], [0, 0, 0]),
  ([1, 1, 1], [1, 1, 1]),
  ([3, 1, 3], [3, 1, 3]),
  ([7, 5, 3], [7, 5, 3]),
  ([13, 11, 7], [5, 3, 7]),
  ([31, 29, 23], [31, 21, 7]),
  ([61, 59, 53], [21, 51, 29]),
  ([127, 113, 109], [127, 17, 101]),
  ([251, 241, 239], [51, 17, 15]),
  ([509, 503, 499], [341, 455, 315]),
  ([1021, 1019, 1013], [341, 819, 93]),
  ([2039, 2029, 2027], [455, 1509, 195]),
  ([4093, 4091, 4079], [1365, 819, 3855]),
  ([8191, 8179, 8171], [8191, 4411, 4291]),
  ([16381, 16369, 16363], [5461, 4369, 12483]),
  ([32749, 32719, 32717], [13797, 10031, 1285]),
  ([65521, 65519, 65497], [4369, 3855, 36969]),
  ([131071, 131063, 131059], [131071, 29127, 110907]),
  ([262139, 262133, 262127], [209715, 95325, 200463]),
  ([524287, 524269, 524261], [524287, 275941, 271853]),
  ([1048573, 1048571, 1048559], [349525, 209715, 986895]),
  ([2097143, 2097133, 2097131], [1864135, 1324517, 798915]),
  ([4194301, 4194287, 4194277], [1398101, 986895, 3417581]),
  ([8388593, 8388587, 8388581], [1118481, 798915, 3417581]),
  ([16777213, 16777199, 16777183], [5592405, 986895, 15760415]),
  ([33554393, 33554383, 33554371], [17207401, 31500079, 15952107]),
  ([67108859, 67108837, 67108819], [53687091, 62137837, 50704475]),
  ([134217689, 134217649, 134217617], [17207401, 113830225, 82223473]),
  ([268435399, 268435367, 268435361], [131863031, 96516119, 186492001]),
  ([536870909, 536870879, 536870869], [357913941, 32537631, 274678141]),
  ([1073741789, 1073741783, 1073741741], [889671797, 1047552999, 349289509]),
  ([2147483647, 2147483629, 2147483587], [2147483647, 1469330917, 1056139499]),
  ([4294967291, 4294967279, 4294967231], [858993459, 252645135, 1057222719]),
  ([8589934583, 8589934567, 8589934543], [7635497415, 1030792151, 3856705327]),
  ([17179869143, 17179869107, 17179869071], [9637487591, 11825104763, 12618841967]),
  ([34359738337, 34359738319, 34359738307], [1108378657, 21036574511, 22530975979]),
  ([68719476731, 68719476719, 68719476713], [13743895347, 64677154575, 8963410009]),
  ([137438953447, 137438953441, 137438953427], [43980465111, 35468117025, 70246576219]),
  ([274877906899, 274877906857, 274877906837], [207685529691, 41073710233, 208085144509]),
  ([549755813881, 549755813869, 549755813821], [78536544841, 347214198245, 369238979477]),
  ([1099511627689, 1099511627609, 1099511627581], [315951617177, 928330176745, 343949791253]),
  ([2199023255531, 2199023255521, 2199023255497], [209430786243, 1134979744801, 1119502748281]),
  ([4398046511093, 4398046511087, 4398046511071], [1199467230301, 3363212037903, 3331853417503]),
  ([8796093022151, 8796093022141, 8796093022091], [8178823336439, 918994793365, 2405769031715]),
  ([17592186044399, 17592186044299, 17592186044297], [16557351571215, 2405769031715, 2365335938745]),
  ([35184372088777, 35184372088763, 35184372088751], [27507781814905, 17847145262451, 11293749065551]),
  ([70368744177643, 70368744177607, 70368744177601], [13403570319555, 34567102403063, 4467856773185]),
  ([140737488355213, 140737488355201, 140737488355181], [88113905752901, 4432676798593, 22020151239269]),
  ([281474976710597, 281474976710591, 281474976710567], [100186008659725, 4330384257087, 123342967322647]),
  ([562949953421231, 562949953421201, 562949953421189], [222399981598543, 25358106009969, 366146311168333]),
  ([1125899906842597, 1125899906842589, 1125899906842573], [667199944795629, 289517118902389, 286994093901061]),
  ([2251799813685119, 2251799813685109, 2251799813685083], [558586000294015, 161999986596061, 232003617167571]),
  ([4503599627370449, 4503599627370353, 4503599627370323], [3449565672028465, 3558788516733329, 3514369651416283]),
  ([9007199254740881, 9007199254740847, 9007199254740761], [2840107873116529, 496948924399503, 4991002184445225]),
  ([18014398509481951, 18014398509481931, 18014398509481853], [16922616781634591, 13595772459986403, 6600695637062101]),
  ([36028797018963913, 36028797018963901, 36028797018963869], [20962209174669945, 20434243085382549, 11645671763705525]),
  ([72057594037927931, 72057594037927909, 72057594037927889], [14411518807585587, 18681598454277613, 21463964181510449]),
  ([144115188075855859, 144115188075855823, 144115188075855811], [88686269585142075, 44116894308935471, 18900352534538475]),
  ([288230376151711687, 288230376151711681, 288230376151711607], [126416831645487607, 18300341342965825, 136751638320155207]),
  ([576460752303423263, 576460752303423061, 576460752303422971], [5124095576030431, 2700050362076925, 198471980483577139]),
  ([1152921504606846883, 1152921504606846803, 1152921504606846697], [12397005425880075, 566464323072728283, 4132335141960025]),
  ([2305843009213693951, 2305843009213693669, 2305843009213693613], [2305843009213693951, 1768084568902373101, 360500529464087845]),
  ([4611686018427387733, 4611686018427387421, 4611686018427387271], [4557748170258646525, 152768066863019061, 1515372340968241207]),
  ([9223372036854775291, 9223372036854775279, 9223372036854775181], [3657236494304118067, 2545580940228350223, 3339243145719352645]),
  ([9223372036854775291, 9223372036854775279, 9223372036854775181], [3657236494304118067, 11768952977083126031, 3339243145719352645])
]

/-- `PRIME_TABLE[w][0][n]`; reading outside the table is undefined. -/
def primeAt (w n : Nat) : Res Nat :=
  match primeTable[w]? with
  | none => .error .oob
  | some r => match r.1[n]? with
    | none => .error .oob
    | some p => .ok p

/-- `PRIME_TABLE[w][1][n]`; reading outside the table is undefined. -/
def invPrimeAt (w n : Nat) : Res Nat :=
  match primeTable[w]? with
  | none => .error .oob
  | some r => match r.2[n]? with
    | none => .error .oob
    | some p => .ok p

/-- `Xorshift::mask` / `MultiplicativeHash::mask`, bijective_hash.hpp:114, 158:
`-1ULL >> (64-m_bits)`, where `64-m_bits` is an `int` (undefined if the shift is 64 or negative). -/
def hashMask (bits : Nat) : Res Nat := if 64 < bits then .error .shift else shr64 (W64 - 1) (64 - bits)

/-- `Xorshift::m_shift`, bijective_hash.hpp:84: `univ_bits / 2 + 1` -/
def xorshiftShift (bits : Nat) : Nat := bits / 2 + 1

/-- `Xorshift::hash_<N>`, bijective_hash.hpp:121-127 -/
def xorshiftStage (bits n x : Nat) : Res Nat := do
  let sh ← shr64 x (xorshiftShift bits + n)
  let x := x ^^^ sh
  let p ← primeAt bits n
  let m ← hashMask bits
  return ((x * p) % W64) &&& m

/-- `Xorshift::hash_inv_<N>`, bijective_hash.hpp:128-133 -/
def xorshiftStageInv (bits n x : Nat) : Res Nat := do
  let q ← invPrimeAt bits n
  let m ← hashMask bits
  let x := ((x * q) % W64) &&& m
  let sh ← shr64 x (xorshiftShift bits + n)
  return x ^^^ sh

/-- `Xorshift::hash`, bijective_hash.hpp:92-98 -/
def xorshiftHash (bits x : Nat) : Res Nat := do
  let x ← xorshiftStage bits 0 x
  let x ← xorshiftStage bits 1 x
  let x ← xorshiftStage bits 2 x
  return x

/-- `Xorshift::hash_inv`, bijective_hash.hpp:100-106 -/
def xorshiftHashInv (bits x : Nat) : Res Nat := do
  let x ← xorshiftStageInv bits 2 x
  let x ← xorshiftStageInv bits 1 x
  let x ← xorshiftStageInv bits 0 x
  return x

/-- `MultiplicativeHash::hash`, bijective_hash.hpp:148-151 -/
def multHash (bits x : Nat) : Res Nat := do
  let p ← primeAt 63 0
  let m ← hashMask bits
  return ((x * p) % W64) &&& m

/-- `MultiplicativeHash::hash_inv`, bijective_hash.hpp:153-156 -/
def multHashInv (bits x : Nat) : Res Nat := do
  let q ← invPrimeAt 63 0
  let m ← hashMask bits
  return ((x * q) % W64) &&& m

/-- The two functions a `bijective_function` template argument provides (`bits()` is the width). -/
structure BijHash where
  hash : Nat → Nat → Res Nat
  hashInv : Nat → Nat → Res Nat

/-- `bijective_hash::Xorshift` -/
def xorshift : BijHash := ⟨xorshiftHash, xorshiftHashInv⟩
/-- `bijective_hash::MultiplicativeHash` -/
def multiplicative : BijHash := ⟨multHash, multHashInv⟩

end SC
