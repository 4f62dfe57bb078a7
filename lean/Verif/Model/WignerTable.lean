/-!
# The table of Wigner 3j symbols

The numbers of `getWigner3j`, `freud/order/Wigner3j.cc:59-5833`, as decimal fractions: each literal of the
code times `10 ^ 21`. (The code stores them as `double`, that is, rounded to 53 bits.) One list per
`case`, one line per value of `m1`.
-/

namespace Freud.Wigner

/-- A literal without a sign. -/
local macro "P" n:num : term => `(Int.ofNat (nat_lit $n))
/-- A literal with a minus sign. -/
local macro "N" n:num : term => `(Int.neg (Int.ofNat (nat_lit $n)))

/-- `freud/order/Wigner3j.cc`, `case 0`, the values with `m1 = 0`. -/
noncomputable def row0_0 : List Int := [
  P 1000000000000000000000]
/-- `case 0` of `getWigner3j`, times `10 ^ 21`; the rows above are its parts with `m1 = -0, ..., 0`. -/
noncomputable def table0 : List (List Int) := [
  row0_0]

/-- `freud/order/Wigner3j.cc`, `case 1`, the values with `m1 = -1`. -/
noncomputable def row1_0 : List Int := [
  P 408248290463863000000, N 408248290463863000000]
/-- `freud/order/Wigner3j.cc`, `case 1`, the values with `m1 = 0`. -/
noncomputable def row1_1 : List Int := [
  N 408248290463863000000, P 0, P 408248290463863000000]
/-- `freud/order/Wigner3j.cc`, `case 1`, the values with `m1 = 1`. -/
noncomputable def row1_2 : List Int := [
  P 408248290463863000000, N 408248290463863000000]
/-- `case 1` of `getWigner3j`, times `10 ^ 21`; the rows above are its parts with `m1 = -1, ..., 1`. -/
noncomputable def table1 : List (List Int) := [
  row1_0, row1_1, row1_2]

/-- `freud/order/Wigner3j.cc`, `case 2`, the values with `m1 = -2`. -/
noncomputable def row2_0 : List Int := [
  P 239045721866878720000, N 292770021884559970000, P 239045721866878720000]
/-- `freud/order/Wigner3j.cc`, `case 2`, the values with `m1 = -1`. -/
noncomputable def row2_1 : List Int := [
  N 292770021884559970000, P 119522860933439360000, P 119522860933439360000, N 292770021884559970000]
/-- `freud/order/Wigner3j.cc`, `case 2`, the values with `m1 = 0`. -/
noncomputable def row2_2 : List Int := [
  P 239045721866878720000, P 119522860933439360000, N 239045721866878720000, P 119522860933439360000,
  P 239045721866878720000]
/-- `freud/order/Wigner3j.cc`, `case 2`, the values with `m1 = 1`. -/
noncomputable def row2_3 : List Int := [
  N 292770021884559970000, P 119522860933439360000, P 119522860933439360000, N 292770021884559970000]
/-- `freud/order/Wigner3j.cc`, `case 2`, the values with `m1 = 2`. -/
noncomputable def row2_4 : List Int := [
  P 239045721866878720000, N 292770021884559970000, P 239045721866878720000]
/-- `case 2` of `getWigner3j`, times `10 ^ 21`; the rows above are its parts with `m1 = -2, ..., 2`. -/
noncomputable def table2 : List (List Int) := [
  row2_0, row2_1, row2_2, row2_3, row2_4]

/-- `freud/order/Wigner3j.cc`, `case 3`, the values with `m1 = -3`. -/
noncomputable def row3_0 : List Int := [
  P 154303349962091900000, N 218217890235992400000, P 218217890235992400000, N 154303349962091900000]
/-- `freud/order/Wigner3j.cc`, `case 3`, the values with `m1 = -2`. -/
noncomputable def row3_1 : List Int := [
  N 218217890235992400000, P 154303349962091900000, P 0, N 154303349962091900000,
  P 218217890235992400000]
/-- `freud/order/Wigner3j.cc`, `case 3`, the values with `m1 = -1`. -/
noncomputable def row3_2 : List Int := [
  P 218217890235992400000, P 0, N 154303349962091900000, P 154303349962091900000,
  P 0, N 218217890235992400000]
/-- `freud/order/Wigner3j.cc`, `case 3`, the values with `m1 = 0`. -/
noncomputable def row3_3 : List Int := [
  N 154303349962091900000, N 154303349962091900000, P 154303349962091900000, P 0,
  N 154303349962091900000, P 154303349962091900000, P 154303349962091900000]
/-- `freud/order/Wigner3j.cc`, `case 3`, the values with `m1 = 1`. -/
noncomputable def row3_4 : List Int := [
  P 218217890235992400000, P 0, N 154303349962091900000, P 154303349962091900000,
  P 0, N 218217890235992400000]
/-- `freud/order/Wigner3j.cc`, `case 3`, the values with `m1 = 2`. -/
noncomputable def row3_5 : List Int := [
  N 218217890235992400000, P 154303349962091900000, P 0, N 154303349962091900000,
  P 218217890235992400000]
/-- `freud/order/Wigner3j.cc`, `case 3`, the values with `m1 = 3`. -/
noncomputable def row3_6 : List Int := [
  P 154303349962091900000, N 218217890235992400000, P 218217890235992400000, N 154303349962091900000]
/-- `case 3` of `getWigner3j`, times `10 ^ 21`; the rows above are its parts with `m1 = -3, ..., 3`. -/
noncomputable def table3 : List (List Int) := [
  row3_0, row3_1, row3_2, row3_3, row3_4, row3_5,
  row3_6]

/-- `freud/order/Wigner3j.cc`, `case 4`, the values with `m1 = -4`. -/
noncomputable def row4_0 : List Int := [
  P 104297703129123980000, N 164909148306051220000, P 186989398001691430000, N 164909148306051220000,
  P 104297703129123980000]
/-- `freud/order/Wigner3j.cc`, `case 4`, the values with `m1 = -3`. -/
noncomputable def row4_1 : List Int := [
  N 164909148306051220000, P 156446554693685960000, N 62329799333897144000, N 62329799333897144000,
  P 156446554693685960000, N 164909148306051220000]
/-- `freud/order/Wigner3j.cc`, `case 4`, the values with `m1 = -2`. -/
noncomputable def row4_2 : List Int := [
  P 186989398001691430000, N 62329799333897144000, N 81948195315740270000, P 141350698548043900000,
  N 81948195315740270000, N 62329799333897144000, P 186989398001691430000]
/-- `freud/order/Wigner3j.cc`, `case 4`, the values with `m1 = -1`. -/
noncomputable def row4_3 : List Int := [
  N 164909148306051220000, N 62329799333897144000, P 141350698548043900000, N 67048523440151140000,
  N 67048523440151140000, P 141350698548043900000, N 62329799333897144000, N 164909148306051220000]
/-- `freud/order/Wigner3j.cc`, `case 4`, the values with `m1 = 0`. -/
noncomputable def row4_4 : List Int := [
  P 104297703129123980000, P 156446554693685960000, N 81948195315740270000, N 67048523440151140000,
  P 134097046880302270000, N 67048523440151140000, N 81948195315740270000, P 156446554693685960000,
  P 104297703129123980000]
/-- `freud/order/Wigner3j.cc`, `case 4`, the values with `m1 = 1`. -/
noncomputable def row4_5 : List Int := [
  N 164909148306051220000, N 62329799333897144000, P 141350698548043900000, N 67048523440151140000,
  N 67048523440151140000, P 141350698548043900000, N 62329799333897144000, N 164909148306051220000]
/-- `freud/order/Wigner3j.cc`, `case 4`, the values with `m1 = 2`. -/
noncomputable def row4_6 : List Int := [
  P 186989398001691430000, N 62329799333897144000, N 81948195315740270000, P 141350698548043900000,
  N 81948195315740270000, N 62329799333897144000, P 186989398001691430000]
/-- `freud/order/Wigner3j.cc`, `case 4`, the values with `m1 = 3`. -/
noncomputable def row4_7 : List Int := [
  N 164909148306051220000, P 156446554693685960000, N 62329799333897144000, N 62329799333897144000,
  P 156446554693685960000, N 164909148306051220000]
/-- `freud/order/Wigner3j.cc`, `case 4`, the values with `m1 = 4`. -/
noncomputable def row4_8 : List Int := [
  P 104297703129123980000, N 164909148306051220000, P 186989398001691430000, N 164909148306051220000,
  P 104297703129123980000]
/-- `case 4` of `getWigner3j`, times `10 ^ 21`; the rows above are its parts with `m1 = -4, ..., 4`. -/
noncomputable def table4 : List (List Int) := [
  row4_0, row4_1, row4_2, row4_3, row4_4, row4_5,
  row4_6, row4_7, row4_8]

/-- `freud/order/Wigner3j.cc`, `case 5`, the values with `m1 = -5`. -/
noncomputable def row5_0 : List Int := [
  P 72420682437790140000, N 125436301501063600000, P 156446554693685960000, N 156446554693685960000,
  P 125436301501063600000, N 72420682437790140000]
/-- `freud/order/Wigner3j.cc`, `case 5`, the values with `m1 = -4`. -/
noncomputable def row5_1 : List Int := [
  N 125436301501063600000, P 144841364875580280000, N 93494699000845710000, P 0,
  P 93494699000845710000, N 144841364875580280000, P 125436301501063600000]
/-- `freud/order/Wigner3j.cc`, `case 5`, the values with `m1 = -3`. -/
noncomputable def row5_2 : List Int := [
  P 156446554693685960000, N 93494699000845710000, N 24140227479263380000, P 107958379271882620000,
  N 107958379271882620000, P 24140227479263380000, P 93494699000845710000, N 156446554693685960000]
/-- `freud/order/Wigner3j.cc`, `case 5`, the values with `m1 = -2`. -/
noncomputable def row5_3 : List Int := [
  N 156446554693685960000, P 0, P 107958379271882620000, N 96560909917053520000,
  P 0, P 96560909917053520000, N 107958379271882620000, P 0,
  P 156446554693685960000]
/-- `freud/order/Wigner3j.cc`, `case 5`, the values with `m1 = -1`. -/
noncomputable def row5_4 : List Int := [
  P 125436301501063600000, P 93494699000845710000, N 107958379271882620000, P 0,
  P 96560909917053520000, N 96560909917053520000, P 0, P 107958379271882620000,
  N 93494699000845710000, N 125436301501063600000]
/-- `freud/order/Wigner3j.cc`, `case 5`, the values with `m1 = 0`. -/
noncomputable def row5_5 : List Int := [
  N 72420682437790140000, N 144841364875580280000, P 24140227479263380000, P 96560909917053520000,
  N 96560909917053520000, P 0, P 96560909917053520000, N 96560909917053520000,
  N 24140227479263380000, P 144841364875580280000, P 72420682437790140000]
/-- `freud/order/Wigner3j.cc`, `case 5`, the values with `m1 = 1`. -/
noncomputable def row5_6 : List Int := [
  P 125436301501063600000, P 93494699000845710000, N 107958379271882620000, P 0,
  P 96560909917053520000, N 96560909917053520000, P 0, P 107958379271882620000,
  N 93494699000845710000, N 125436301501063600000]
/-- `freud/order/Wigner3j.cc`, `case 5`, the values with `m1 = 2`. -/
noncomputable def row5_7 : List Int := [
  N 156446554693685960000, P 0, P 107958379271882620000, N 96560909917053520000,
  P 0, P 96560909917053520000, N 107958379271882620000, P 0,
  P 156446554693685960000]
/-- `freud/order/Wigner3j.cc`, `case 5`, the values with `m1 = 3`. -/
noncomputable def row5_8 : List Int := [
  P 156446554693685960000, N 93494699000845710000, N 24140227479263380000, P 107958379271882620000,
  N 107958379271882620000, P 24140227479263380000, P 93494699000845710000, N 156446554693685960000]
/-- `freud/order/Wigner3j.cc`, `case 5`, the values with `m1 = 4`. -/
noncomputable def row5_9 : List Int := [
  N 125436301501063600000, P 144841364875580280000, N 93494699000845710000, P 0,
  P 93494699000845710000, N 144841364875580280000, P 125436301501063600000]
/-- `freud/order/Wigner3j.cc`, `case 5`, the values with `m1 = 5`. -/
noncomputable def row5_10 : List Int := [
  P 72420682437790140000, N 125436301501063600000, P 156446554693685960000, N 156446554693685960000,
  P 125436301501063600000, N 72420682437790140000]
/-- `case 5` of `getWigner3j`, times `10 ^ 21`; the rows above are its parts with `m1 = -5, ..., 5`. -/
noncomputable def table5 : List (List Int) := [
  row5_0, row5_1, row5_2, row5_3, row5_4, row5_5,
  row5_6, row5_7, row5_8, row5_9, row5_10]

/-- `freud/order/Wigner3j.cc`, `case 6`, the values with `m1 = -6`. -/
noncomputable def row6_0 : List Int := [
  P 51182725116209915000, N 95754110753143480000, P 129114816600118780000, N 141438195120055070000,
  P 129114816600118780000, N 95754110753143480000, P 51182725116209915000]
/-- `freud/order/Wigner3j.cc`, `case 6`, the values with `m1 = -5`. -/
noncomputable def row6_1 : List Int := [
  N 95754110753143480000, P 127956812790524800000, N 106078646340041300000, P 40829690013129300000,
  P 40829690013129300000, N 106078646340041300000, P 127956812790524800000, N 95754110753143480000]
/-- `freud/order/Wigner3j.cc`, `case 6`, the values with `m1 = -4`. -/
noncomputable def row6_2 : List Int := [
  P 129114816600118780000, N 106078646340041300000, P 18611900042258150000, P 68818428478171460000,
  N 104459029912520170000, P 68818428478171460000, P 18611900042258150000, N 106078646340041300000,
  P 129114816600118780000]
/-- `freud/order/Wigner3j.cc`, `case 6`, the values with `m1 = -3`. -/
noncomputable def row6_3 : List Int := [
  N 141438195120055070000, P 40829690013129300000, P 68818428478171460000, N 100038962727137550000,
  P 45232086779460515000, P 45232086779460515000, N 100038962727137550000, P 68818428478171460000,
  P 40829690013129300000, N 141438195120055070000]
/-- `freud/order/Wigner3j.cc`, `case 6`, the values with `m1 = -2`. -/
noncomputable def row6_4 : List Int := [
  P 129114816600118780000, P 40829690013129300000, N 104459029912520170000, P 45232086779460515000,
  P 51182725116209915000, N 95357611696990320000, P 51182725116209915000, P 45232086779460515000,
  N 104459029912520170000, P 40829690013129300000, P 129114816600118780000]
/-- `freud/order/Wigner3j.cc`, `case 6`, the values with `m1 = -1`. -/
noncomputable def row6_5 : List Int := [
  N 95754110753143480000, N 106078646340041300000, P 68818428478171460000, P 45232086779460515000,
  N 95357611696990320000, P 46529750105645376000, P 46529750105645376000, N 95357611696990320000,
  P 45232086779460515000, P 68818428478171460000, N 106078646340041300000, N 95754110753143480000]
/-- `freud/order/Wigner3j.cc`, `case 6`, the values with `m1 = 0`. -/
noncomputable def row6_6 : List Int := [
  P 51182725116209915000, P 127956812790524800000, P 18611900042258150000, N 100038962727137550000,
  P 51182725116209915000, P 46529750105645376000, N 93059500211290750000, P 46529750105645376000,
  P 51182725116209915000, N 100038962727137550000, P 18611900042258150000, P 127956812790524800000,
  P 51182725116209915000]
/-- `freud/order/Wigner3j.cc`, `case 6`, the values with `m1 = 1`. -/
noncomputable def row6_7 : List Int := [
  N 95754110753143480000, N 106078646340041300000, P 68818428478171460000, P 45232086779460515000,
  N 95357611696990320000, P 46529750105645376000, P 46529750105645376000, N 95357611696990320000,
  P 45232086779460515000, P 68818428478171460000, N 106078646340041300000, N 95754110753143480000]
/-- `freud/order/Wigner3j.cc`, `case 6`, the values with `m1 = 2`. -/
noncomputable def row6_8 : List Int := [
  P 129114816600118780000, P 40829690013129300000, N 104459029912520170000, P 45232086779460515000,
  P 51182725116209915000, N 95357611696990320000, P 51182725116209915000, P 45232086779460515000,
  N 104459029912520170000, P 40829690013129300000, P 129114816600118780000]
/-- `freud/order/Wigner3j.cc`, `case 6`, the values with `m1 = 3`. -/
noncomputable def row6_9 : List Int := [
  N 141438195120055070000, P 40829690013129300000, P 68818428478171460000, N 100038962727137550000,
  P 45232086779460515000, P 45232086779460515000, N 100038962727137550000, P 68818428478171460000,
  P 40829690013129300000, N 141438195120055070000]
/-- `freud/order/Wigner3j.cc`, `case 6`, the values with `m1 = 4`. -/
noncomputable def row6_10 : List Int := [
  P 129114816600118780000, N 106078646340041300000, P 18611900042258150000, P 68818428478171460000,
  N 104459029912520170000, P 68818428478171460000, P 18611900042258150000, N 106078646340041300000,
  P 129114816600118780000]
/-- `freud/order/Wigner3j.cc`, `case 6`, the values with `m1 = 5`. -/
noncomputable def row6_11 : List Int := [
  N 95754110753143480000, P 127956812790524800000, N 106078646340041300000, P 40829690013129300000,
  P 40829690013129300000, N 106078646340041300000, P 127956812790524800000, N 95754110753143480000]
/-- `freud/order/Wigner3j.cc`, `case 6`, the values with `m1 = 6`. -/
noncomputable def row6_12 : List Int := [
  P 51182725116209915000, N 95754110753143480000, P 129114816600118780000, N 141438195120055070000,
  P 129114816600118780000, N 95754110753143480000, P 51182725116209915000]
/-- `case 6` of `getWigner3j`, times `10 ^ 21`; the rows above are its parts with `m1 = -6, ..., 6`. -/
noncomputable def table6 : List (List Int) := [
  row6_0, row6_1, row6_2, row6_3, row6_4, row6_5,
  row6_6, row6_7, row6_8, row6_9, row6_10, row6_11,
  row6_12]

/-- `freud/order/Wigner3j.cc`, `case 7`, the values with `m1 = -7`. -/
noncomputable def row7_0 : List Int := [
  P 36627711739690504000, N 73255423479381010000, P 105572301461668030000, N 124418150448359870000,
  P 124418150448359870000, N 105572301461668030000, P 73255423479381010000, N 36627711739690504000]
/-- `freud/order/Wigner3j.cc`, `case 7`, the values with `m1 = -6`. -/
noncomputable def row7_1 : List Int := [
  N 73255423479381010000, P 109883135219071520000, N 107509569497509060000, P 65835896933795920000,
  P 0, N 65835896933795920000, P 107509569497509060000, N 109883135219071520000,
  P 73255423479381010000]
/-- `freud/order/Wigner3j.cc`, `case 7`, the values with `m1 = -5`. -/
noncomputable def row7_2 : List Int := [
  P 105572301461668030000, N 107509569497509060000, P 47897776890364510000, P 31626541890332210000,
  N 85645080307628960000, P 85645080307628960000, N 31626541890332210000, N 47897776890364510000,
  P 107509569497509060000, N 105572301461668030000]
/-- `freud/order/Wigner3j.cc`, `case 7`, the values with `m1 = -4`. -/
noncomputable def row7_3 : List Int := [
  N 124418150448359870000, P 65835896933795920000, P 31626541890332210000, N 87343004917723510000,
  P 69928915244459570000, P 0, N 69928915244459570000, P 87343004917723510000,
  N 31626541890332210000, N 65835896933795920000, P 124418150448359870000]
/-- `freud/order/Wigner3j.cc`, `case 7`, the values with `m1 = -3`. -/
noncomputable def row7_4 : List Int := [
  P 124418150448359870000, P 0, N 85645080307628960000, P 69928915244459570000,
  P 8452548863005501000, N 74544474120447730000, P 74544474120447730000, N 8452548863005501000,
  N 69928915244459570000, P 85645080307628960000, P 0, N 124418150448359870000]
/-- `freud/order/Wigner3j.cc`, `case 7`, the values with `m1 = -2`. -/
noncomputable def row7_5 : List Int := [
  N 105572301461668030000, N 65835896933795920000, P 85645080307628960000, P 0,
  N 74544474120447730000, P 70437907191712510000, P 0, N 70437907191712510000,
  P 74544474120447730000, P 0, N 85645080307628960000, P 65835896933795920000,
  P 105572301461668030000]
/-- `freud/order/Wigner3j.cc`, `case 7`, the values with `m1 = -1`. -/
noncomputable def row7_6 : List Int := [
  P 73255423479381010000, P 107509569497509060000, N 31626541890332210000, N 69928915244459570000,
  P 74544474120447730000, P 0, N 70437907191712510000, P 70437907191712510000,
  P 0, N 74544474120447730000, P 69928915244459570000, P 31626541890332210000,
  N 107509569497509060000, N 73255423479381010000]
/-- `freud/order/Wigner3j.cc`, `case 7`, the values with `m1 = 0`. -/
noncomputable def row7_7 : List Int := [
  N 36627711739690504000, N 109883135219071520000, N 47897776890364510000, P 87343004917723510000,
  N 8452548863005501000, N 70437907191712510000, P 70437907191712510000, P 0,
  N 70437907191712510000, P 70437907191712510000, P 8452548863005501000, N 87343004917723510000,
  P 47897776890364510000, P 109883135219071520000, P 36627711739690504000]
/-- `freud/order/Wigner3j.cc`, `case 7`, the values with `m1 = 1`. -/
noncomputable def row7_8 : List Int := [
  P 73255423479381010000, P 107509569497509060000, N 31626541890332210000, N 69928915244459570000,
  P 74544474120447730000, P 0, N 70437907191712510000, P 70437907191712510000,
  P 0, N 74544474120447730000, P 69928915244459570000, P 31626541890332210000,
  N 107509569497509060000, N 73255423479381010000]
/-- `freud/order/Wigner3j.cc`, `case 7`, the values with `m1 = 2`. -/
noncomputable def row7_9 : List Int := [
  N 105572301461668030000, N 65835896933795920000, P 85645080307628960000, P 0,
  N 74544474120447730000, P 70437907191712510000, P 0, N 70437907191712510000,
  P 74544474120447730000, P 0, N 85645080307628960000, P 65835896933795920000,
  P 105572301461668030000]
/-- `freud/order/Wigner3j.cc`, `case 7`, the values with `m1 = 3`. -/
noncomputable def row7_10 : List Int := [
  P 124418150448359870000, P 0, N 85645080307628960000, P 69928915244459570000,
  P 8452548863005501000, N 74544474120447730000, P 74544474120447730000, N 8452548863005501000,
  N 69928915244459570000, P 85645080307628960000, P 0, N 124418150448359870000]
/-- `freud/order/Wigner3j.cc`, `case 7`, the values with `m1 = 4`. -/
noncomputable def row7_11 : List Int := [
  N 124418150448359870000, P 65835896933795920000, P 31626541890332210000, N 87343004917723510000,
  P 69928915244459570000, P 0, N 69928915244459570000, P 87343004917723510000,
  N 31626541890332210000, N 65835896933795920000, P 124418150448359870000]
/-- `freud/order/Wigner3j.cc`, `case 7`, the values with `m1 = 5`. -/
noncomputable def row7_12 : List Int := [
  P 105572301461668030000, N 107509569497509060000, P 47897776890364510000, P 31626541890332210000,
  N 85645080307628960000, P 85645080307628960000, N 31626541890332210000, N 47897776890364510000,
  P 107509569497509060000, N 105572301461668030000]
/-- `freud/order/Wigner3j.cc`, `case 7`, the values with `m1 = 6`. -/
noncomputable def row7_13 : List Int := [
  N 73255423479381010000, P 109883135219071520000, N 107509569497509060000, P 65835896933795920000,
  P 0, N 65835896933795920000, P 107509569497509060000, N 109883135219071520000,
  P 73255423479381010000]
/-- `freud/order/Wigner3j.cc`, `case 7`, the values with `m1 = 7`. -/
noncomputable def row7_14 : List Int := [
  P 36627711739690504000, N 73255423479381010000, P 105572301461668030000, N 124418150448359870000,
  P 124418150448359870000, N 105572301461668030000, P 73255423479381010000, N 36627711739690504000]
/-- `case 7` of `getWigner3j`, times `10 ^ 21`; the rows above are its parts with `m1 = -7, ..., 7`. -/
noncomputable def table7 : List (List Int) := [
  row7_0, row7_1, row7_2, row7_3, row7_4, row7_5,
  row7_6, row7_7, row7_8, row7_9, row7_10, row7_11,
  row7_12, row7_13, row7_14]

/-- `freud/order/Wigner3j.cc`, `case 8`, the values with `m1 = -8`. -/
noncomputable def row8_0 : List Int := [
  P 26456749946173710000, N 56123241885288770000, P 85729668061883970000, N 107467826312282800000,
  P 115438963354368070000, N 107467826312282800000, P 85729668061883970000, N 56123241885288770000,
  P 26456749946173710000]
/-- `freud/order/Wigner3j.cc`, `case 8`, the values with `m1 = -7`. -/
noncomputable def row8_1 : List Int := [
  N 56123241885288770000, P 92598624811608000000, N 102466551936304760000, P 79370249838521130000,
  N 29806212171661055000, N 29806212171661055000, P 79370249838521130000, N 102466551936304760000,
  P 92598624811608000000, N 56123241885288770000]
/-- `freud/order/Wigner3j.cc`, `case 8`, the values with `m1 = -6`. -/
noncomputable def row8_2 : List Int := [
  P 85729668061883970000, N 102466551936304760000, P 66141874865434270000, P 0,
  N 60286032440052290000, P 84304698992266170000, N 60286032440052290000, P 0,
  P 66141874865434270000, N 102466551936304760000, P 85729668061883970000]
/-- `freud/order/Wigner3j.cc`, `case 8`, the values with `m1 = -5`. -/
noncomputable def row8_3 : List Int := [
  N 107467826312282800000, P 79370249838521130000, P 0, N 66141874865434270000,
  P 77828933216414200000, N 33625942333952190000, N 33625942333952190000, P 77828933216414200000,
  N 66141874865434270000, P 0, P 79370249838521130000, N 107467826312282800000]
/-- `freud/order/Wigner3j.cc`, `case 8`, the values with `m1 = -4`. -/
noncomputable def row8_4 : List Int := [
  P 115438963354368070000, N 29806212171661055000, N 60286032440052290000, P 77828933216414200000,
  N 25439182640551644000, N 44587565365516710000, P 75766069053600430000, N 44587565365516710000,
  N 25439182640551644000, P 77828933216414200000, N 60286032440052290000, N 29806212171661055000,
  P 115438963354368070000]
/-- `freud/order/Wigner3j.cc`, `case 8`, the values with `m1 = -3`. -/
noncomputable def row8_5 : List Int := [
  N 107467826312282800000, N 29806212171661055000, P 84304698992266170000, N 33625942333952190000,
  N 44587565365516710000, P 74282413310410800000, N 35072874805289190000, N 35072874805289190000,
  P 74282413310410800000, N 44587565365516710000, N 33625942333952190000, P 84304698992266170000,
  N 29806212171661055000, N 107467826312282800000]
/-- `freud/order/Wigner3j.cc`, `case 8`, the values with `m1 = -2`. -/
noncomputable def row8_6 : List Int := [
  P 85729668061883970000, P 79370249838521130000, N 60286032440052290000, N 33625942333952190000,
  P 75766069053600430000, N 35072874805289190000, N 37649990308016430000, P 72240112376806220000,
  N 37649990308016430000, N 35072874805289190000, P 75766069053600430000, N 33625942333952190000,
  N 60286032440052290000, P 79370249838521130000, P 85729668061883970000]
/-- `freud/order/Wigner3j.cc`, `case 8`, the values with `m1 = -1`. -/
noncomputable def row8_7 : List Int := [
  N 56123241885288770000, N 102466551936304760000, P 0, P 77828933216414200000,
  N 44587565365516710000, N 35072874805289190000, P 72240112376806220000, N 35614855696772300000,
  N 35614855696772300000, P 72240112376806220000, N 35072874805289190000, N 44587565365516710000,
  P 77828933216414200000, P 0, N 102466551936304760000, N 56123241885288770000]
/-- `freud/order/Wigner3j.cc`, `case 8`, the values with `m1 = 0`. -/
noncomputable def row8_8 : List Int := [
  P 26456749946173710000, P 92598624811608000000, P 66141874865434270000, N 66141874865434270000,
  N 25439182640551644000, P 74282413310410800000, N 37649990308016430000, N 35614855696772300000,
  P 71229711393544600000, N 35614855696772300000, N 37649990308016430000, P 74282413310410800000,
  N 25439182640551644000, N 66141874865434270000, P 66141874865434270000, P 92598624811608000000,
  P 26456749946173710000]
/-- `freud/order/Wigner3j.cc`, `case 8`, the values with `m1 = 1`. -/
noncomputable def row8_9 : List Int := [
  N 56123241885288770000, N 102466551936304760000, P 0, P 77828933216414200000,
  N 44587565365516710000, N 35072874805289190000, P 72240112376806220000, N 35614855696772300000,
  N 35614855696772300000, P 72240112376806220000, N 35072874805289190000, N 44587565365516710000,
  P 77828933216414200000, P 0, N 102466551936304760000, N 56123241885288770000]
/-- `freud/order/Wigner3j.cc`, `case 8`, the values with `m1 = 2`. -/
noncomputable def row8_10 : List Int := [
  P 85729668061883970000, P 79370249838521130000, N 60286032440052290000, N 33625942333952190000,
  P 75766069053600430000, N 35072874805289190000, N 37649990308016430000, P 72240112376806220000,
  N 37649990308016430000, N 35072874805289190000, P 75766069053600430000, N 33625942333952190000,
  N 60286032440052290000, P 79370249838521130000, P 85729668061883970000]
/-- `freud/order/Wigner3j.cc`, `case 8`, the values with `m1 = 3`. -/
noncomputable def row8_11 : List Int := [
  N 107467826312282800000, N 29806212171661055000, P 84304698992266170000, N 33625942333952190000,
  N 44587565365516710000, P 74282413310410800000, N 35072874805289190000, N 35072874805289190000,
  P 74282413310410800000, N 44587565365516710000, N 33625942333952190000, P 84304698992266170000,
  N 29806212171661055000, N 107467826312282800000]
/-- `freud/order/Wigner3j.cc`, `case 8`, the values with `m1 = 4`. -/
noncomputable def row8_12 : List Int := [
  P 115438963354368070000, N 29806212171661055000, N 60286032440052290000, P 77828933216414200000,
  N 25439182640551644000, N 44587565365516710000, P 75766069053600430000, N 44587565365516710000,
  N 25439182640551644000, P 77828933216414200000, N 60286032440052290000, N 29806212171661055000,
  P 115438963354368070000]
/-- `freud/order/Wigner3j.cc`, `case 8`, the values with `m1 = 5`. -/
noncomputable def row8_13 : List Int := [
  N 107467826312282800000, P 79370249838521130000, P 0, N 66141874865434270000,
  P 77828933216414200000, N 33625942333952190000, N 33625942333952190000, P 77828933216414200000,
  N 66141874865434270000, P 0, P 79370249838521130000, N 107467826312282800000]
/-- `freud/order/Wigner3j.cc`, `case 8`, the values with `m1 = 6`. -/
noncomputable def row8_14 : List Int := [
  P 85729668061883970000, N 102466551936304760000, P 66141874865434270000, P 0,
  N 60286032440052290000, P 84304698992266170000, N 60286032440052290000, P 0,
  P 66141874865434270000, N 102466551936304760000, P 85729668061883970000]
/-- `freud/order/Wigner3j.cc`, `case 8`, the values with `m1 = 7`. -/
noncomputable def row8_15 : List Int := [
  N 56123241885288770000, P 92598624811608000000, N 102466551936304760000, P 79370249838521130000,
  N 29806212171661055000, N 29806212171661055000, P 79370249838521130000, N 102466551936304760000,
  P 92598624811608000000, N 56123241885288770000]
/-- `freud/order/Wigner3j.cc`, `case 8`, the values with `m1 = 8`. -/
noncomputable def row8_16 : List Int := [
  P 26456749946173710000, N 56123241885288770000, P 85729668061883970000, N 107467826312282800000,
  P 115438963354368070000, N 107467826312282800000, P 85729668061883970000, N 56123241885288770000,
  P 26456749946173710000]
/-- `case 8` of `getWigner3j`, times `10 ^ 21`; the rows above are its parts with `m1 = -8, ..., 8`. -/
noncomputable def table8 : List (List Int) := [
  row8_0, row8_1, row8_2, row8_3, row8_4, row8_5,
  row8_6, row8_7, row8_8, row8_9, row8_10, row8_11,
  row8_12, row8_13, row8_14, row8_15, row8_16]

/-- `freud/order/Wigner3j.cc`, `case 9`, the values with `m1 = -9`. -/
noncomputable def row9_0 : List Int := [
  P 19248154353244368000, N 43040181575262910000, P 69243015413911620000, N 91599899406711160000,
  P 104439954245085180000, N 104439954245085180000, P 91599899406711160000, N 69243015413911620000,
  P 43040181575262910000, N 19248154353244368000]
/-- `freud/order/Wigner3j.cc`, `case 9`, the values with `m1 = -8`. -/
noncomputable def row9_1 : List Int := [
  N 43040181575262910000, P 76992617412977470000, N 93948996060302870000, P 84805028007877010000,
  N 50171331170259785000, P 0, P 50171331170259785000, N 84805028007877010000,
  P 93948996060302870000, N 76992617412977470000, P 43040181575262910000]
/-- `freud/order/Wigner3j.cc`, `case 9`, the values with `m1 = -7`. -/
noncomputable def row9_2 : List Int := [
  P 69243015413911620000, N 93948996060302870000, P 75860373039257220000, N 24806231363795770000,
  N 33797067827589254000, P 71988841659399600000, N 71988841659399600000, P 33797067827589254000,
  P 24806231363795770000, N 75860373039257220000, P 93948996060302870000, N 69243015413911620000]
/-- `freud/order/Wigner3j.cc`, `case 9`, the values with `m1 = -6`. -/
noncomputable def row9_3 : List Int := [
  N 91599899406711160000, P 84805028007877010000, N 24806231363795770000, N 41893041827649510000,
  P 73495655963420920000, N 54418449200679350000, P 0, P 54418449200679350000,
  N 73495655963420920000, P 41893041827649510000, P 24806231363795770000, N 84805028007877010000,
  P 91599899406711160000]
/-- `freud/order/Wigner3j.cc`, `case 9`, the values with `m1 = -5`. -/
noncomputable def row9_4 : List Int := [
  P 104439954245085180000, N 50171331170259785000, N 33797067827589254000, P 73495655963420920000,
  N 48120385883110920000, N 13480366662971442000, P 62046578450620420000, N 62046578450620420000,
  P 13480366662971442000, P 48120385883110920000, N 73495655963420920000, P 33797067827589254000,
  P 50171331170259785000, N 104439954245085180000]
/-- `freud/order/Wigner3j.cc`, `case 9`, the values with `m1 = -4`. -/
noncomputable def row9_5 : List Int := [
  N 104439954245085180000, P 0, P 71988841659399600000, N 54418449200679350000,
  N 13480366662971442000, P 63405684928334390000, N 55338262779927750000, P 0,
  P 55338262779927750000, N 63405684928334390000, P 13480366662971442000, P 54418449200679350000,
  N 71988841659399600000, P 0, P 104439954245085180000]
/-- `freud/order/Wigner3j.cc`, `case 9`, the values with `m1 = -3`. -/
noncomputable def row9_6 : List Int := [
  P 91599899406711160000, P 50171331170259785000, N 71988841659399600000, P 0,
  P 62046578450620420000, N 55338262779927750000, N 3962855308020899000, P 57427229259167450000,
  N 57427229259167450000, P 3962855308020899000, P 55338262779927750000, N 62046578450620420000,
  P 0, P 71988841659399600000, N 50171331170259785000, N 91599899406711160000]
/-- `freud/order/Wigner3j.cc`, `case 9`, the values with `m1 = -2`. -/
noncomputable def row9_7 : List Int := [
  N 69243015413911620000, N 84805028007877010000, P 33797067827589254000, P 54418449200679350000,
  N 62046578450620420000, P 0, P 57427229259167450000, N 55479974312292596000,
  P 0, P 55479974312292596000, N 57427229259167450000, P 0,
  P 62046578450620420000, N 54418449200679350000, N 33797067827589254000, P 84805028007877010000,
  P 69243015413911620000]
/-- `freud/order/Wigner3j.cc`, `case 9`, the values with `m1 = -1`. -/
noncomputable def row9_8 : List Int := [
  P 43040181575262910000, P 93948996060302870000, P 24806231363795770000, N 73495655963420920000,
  P 13480366662971442000, P 55338262779927750000, N 57427229259167450000, P 0,
  P 55479974312292596000, N 55479974312292596000, P 0, P 57427229259167450000,
  N 55338262779927750000, N 13480366662971442000, P 73495655963420920000, N 24806231363795770000,
  N 93948996060302870000, N 43040181575262910000]
/-- `freud/order/Wigner3j.cc`, `case 9`, the values with `m1 = 0`. -/
noncomputable def row9_9 : List Int := [
  N 19248154353244368000, N 76992617412977470000, N 75860373039257220000, P 41893041827649510000,
  P 48120385883110920000, N 63405684928334390000, P 3962855308020899000, P 55479974312292596000,
  N 55479974312292596000, P 0, P 55479974312292596000, N 55479974312292596000,
  N 3962855308020899000, P 63405684928334390000, N 48120385883110920000, N 41893041827649510000,
  P 75860373039257220000, P 76992617412977470000, P 19248154353244368000]
/-- `freud/order/Wigner3j.cc`, `case 9`, the values with `m1 = 1`. -/
noncomputable def row9_10 : List Int := [
  P 43040181575262910000, P 93948996060302870000, P 24806231363795770000, N 73495655963420920000,
  P 13480366662971442000, P 55338262779927750000, N 57427229259167450000, P 0,
  P 55479974312292596000, N 55479974312292596000, P 0, P 57427229259167450000,
  N 55338262779927750000, N 13480366662971442000, P 73495655963420920000, N 24806231363795770000,
  N 93948996060302870000, N 43040181575262910000]
/-- `freud/order/Wigner3j.cc`, `case 9`, the values with `m1 = 2`. -/
noncomputable def row9_11 : List Int := [
  N 69243015413911620000, N 84805028007877010000, P 33797067827589254000, P 54418449200679350000,
  N 62046578450620420000, P 0, P 57427229259167450000, N 55479974312292596000,
  P 0, P 55479974312292596000, N 57427229259167450000, P 0,
  P 62046578450620420000, N 54418449200679350000, N 33797067827589254000, P 84805028007877010000,
  P 69243015413911620000]
/-- `freud/order/Wigner3j.cc`, `case 9`, the values with `m1 = 3`. -/
noncomputable def row9_12 : List Int := [
  P 91599899406711160000, P 50171331170259785000, N 71988841659399600000, P 0,
  P 62046578450620420000, N 55338262779927750000, N 3962855308020899000, P 57427229259167450000,
  N 57427229259167450000, P 3962855308020899000, P 55338262779927750000, N 62046578450620420000,
  P 0, P 71988841659399600000, N 50171331170259785000, N 91599899406711160000]
/-- `freud/order/Wigner3j.cc`, `case 9`, the values with `m1 = 4`. -/
noncomputable def row9_13 : List Int := [
  N 104439954245085180000, P 0, P 71988841659399600000, N 54418449200679350000,
  N 13480366662971442000, P 63405684928334390000, N 55338262779927750000, P 0,
  P 55338262779927750000, N 63405684928334390000, P 13480366662971442000, P 54418449200679350000,
  N 71988841659399600000, P 0, P 104439954245085180000]
/-- `freud/order/Wigner3j.cc`, `case 9`, the values with `m1 = 5`. -/
noncomputable def row9_14 : List Int := [
  P 104439954245085180000, N 50171331170259785000, N 33797067827589254000, P 73495655963420920000,
  N 48120385883110920000, N 13480366662971442000, P 62046578450620420000, N 62046578450620420000,
  P 13480366662971442000, P 48120385883110920000, N 73495655963420920000, P 33797067827589254000,
  P 50171331170259785000, N 104439954245085180000]
/-- `freud/order/Wigner3j.cc`, `case 9`, the values with `m1 = 6`. -/
noncomputable def row9_15 : List Int := [
  N 91599899406711160000, P 84805028007877010000, N 24806231363795770000, N 41893041827649510000,
  P 73495655963420920000, N 54418449200679350000, P 0, P 54418449200679350000,
  N 73495655963420920000, P 41893041827649510000, P 24806231363795770000, N 84805028007877010000,
  P 91599899406711160000]
/-- `freud/order/Wigner3j.cc`, `case 9`, the values with `m1 = 7`. -/
noncomputable def row9_16 : List Int := [
  P 69243015413911620000, N 93948996060302870000, P 75860373039257220000, N 24806231363795770000,
  N 33797067827589254000, P 71988841659399600000, N 71988841659399600000, P 33797067827589254000,
  P 24806231363795770000, N 75860373039257220000, P 93948996060302870000, N 69243015413911620000]
/-- `freud/order/Wigner3j.cc`, `case 9`, the values with `m1 = 8`. -/
noncomputable def row9_17 : List Int := [
  N 43040181575262910000, P 76992617412977470000, N 93948996060302870000, P 84805028007877010000,
  N 50171331170259785000, P 0, P 50171331170259785000, N 84805028007877010000,
  P 93948996060302870000, N 76992617412977470000, P 43040181575262910000]
/-- `freud/order/Wigner3j.cc`, `case 9`, the values with `m1 = 9`. -/
noncomputable def row9_18 : List Int := [
  P 19248154353244368000, N 43040181575262910000, P 69243015413911620000, N 91599899406711160000,
  P 104439954245085180000, N 104439954245085180000, P 91599899406711160000, N 69243015413911620000,
  P 43040181575262910000, N 19248154353244368000]
/-- `case 9` of `getWigner3j`, times `10 ^ 21`; the rows above are its parts with `m1 = -9, ..., 9`. -/
noncomputable def table9 : List (List Int) := [
  row9_0, row9_1, row9_2, row9_3, row9_4, row9_5,
  row9_6, row9_7, row9_8, row9_9, row9_10, row9_11,
  row9_12, row9_13, row9_14, row9_15, row9_16, row9_17,
  row9_18]

/-- `freud/order/Wigner3j.cc`, `case 10`, the values with `m1 = -10`. -/
noncomputable def row10_0 : List Int := [
  P 14084201054019469000, N 33030379294147340000, P 55684412276508300000, N 77277565157507890000,
  P 92770951614394480000, N 98398453475501150000, P 92770951614394480000, N 77277565157507890000,
  P 55684412276508300000, N 33030379294147340000, P 14084201054019469000]
/-- `freud/order/Wigner3j.cc`, `case 10`, the values with `m1 = -9`. -/
noncomputable def row10_1 : List Int := [
  N 33030379294147340000, P 63378904743087600000, N 83869644985102840000, P 84721135292392200000,
  N 62864465957734570000, P 23192737903598620000, P 23192737903598620000, N 62864465957734570000,
  P 84721135292392200000, N 83869644985102840000, P 63378904743087600000, N 33030379294147340000]
/-- `freud/order/Wigner3j.cc`, `case 10`, the values with `m1 = -8`. -/
noncomputable def row10_2 : List Int := [
  P 55684412276508300000, N 83869644985102840000, P 79316290146320160000, N 42848251158211725000,
  N 9333263758353732000, P 53967901150019815000, N 71385741044031020000, P 53967901150019815000,
  N 9333263758353732000, N 42848251158211725000, P 79316290146320160000, N 83869644985102840000,
  P 55684412276508300000]
/-- `freud/order/Wigner3j.cc`, `case 10`, the values with `m1 = -7`. -/
noncomputable def row10_3 : List Int := [
  N 77277565157507890000, P 84721135292392200000, N 42848251158211725000, N 18161206622288262000,
  P 61282130874106690000, N 63535343045261900000, P 26495085090903570000, P 26495085090903570000,
  N 63535343045261900000, P 61282130874106690000, N 18161206622288262000, N 42848251158211725000,
  P 84721135292392200000, N 77277565157507890000]
/-- `freud/order/Wigner3j.cc`, `case 10`, the values with `m1 = -6`. -/
noncomputable def row10_4 : List Int := [
  P 92770951614394480000, N 62864465957734570000, N 9333263758353732000, P 61282130874106690000,
  N 59781546888732794000, P 13600744415237140000, P 40327765795963980000, N 63614174488484800000,
  P 40327765795963980000, P 13600744415237140000, N 59781546888732794000, P 61282130874106690000,
  N 9333263758353732000, N 62864465957734570000, P 92770951614394480000]
/-- `freud/order/Wigner3j.cc`, `case 10`, the values with `m1 = -5`. -/
noncomputable def row10_5 : List Int := [
  N 98398453475501150000, P 23192737903598620000, P 53967901150019815000, N 63535343045261900000,
  P 13600744415237140000, P 43833260401093100000, N 61282397503055340000, P 27896660938361115000,
  P 27896660938361115000, N 61282397503055340000, P 43833260401093100000, P 13600744415237140000,
  N 63535343045261900000, P 53967901150019815000, P 23192737903598620000, N 98398453475501150000]
/-- `freud/order/Wigner3j.cc`, `case 10`, the values with `m1 = -4`. -/
noncomputable def row10_6 : List Int := [
  P 92770951614394480000, P 23192737903598620000, N 71385741044031020000, P 26495085090903570000,
  P 40327765795963980000, N 61282397503055340000, P 23916979189255970000, P 33388822149103825000,
  N 59976018880522500000, P 33388822149103825000, P 23916979189255970000, N 61282397503055340000,
  P 40327765795963980000, P 26495085090903570000, N 71385741044031020000, P 23192737903598620000,
  P 92770951614394480000]
/-- `freud/order/Wigner3j.cc`, `case 10`, the values with `m1 = -3`. -/
noncomputable def row10_7 : List Int := [
  N 77277565157507890000, N 62864465957734570000, P 53967901150019815000, P 26495085090903570000,
  N 63614174488484800000, P 27896660938361115000, P 33388822149103825000, N 59290998090411680000,
  P 28565958372935296000, P 28565958372935296000, N 59290998090411680000, P 33388822149103825000,
  P 27896660938361115000, N 63614174488484800000, P 26495085090903570000, P 53967901150019815000,
  N 62864465957734570000, N 77277565157507890000]
/-- `freud/order/Wigner3j.cc`, `case 10`, the values with `m1 = -2`. -/
noncomputable def row10_8 : List Int := [
  P 55684412276508300000, P 84721135292392200000, N 9333263758353732000, N 63535343045261900000,
  P 40327765795963980000, P 27896660938361115000, N 59976018880522500000, P 28565958372935296000,
  P 29912575613180666000, N 58220241523209290000, P 29912575613180666000, P 28565958372935296000,
  N 59976018880522500000, P 27896660938361115000, P 40327765795963980000, N 63535343045261900000,
  N 9333263758353732000, P 84721135292392200000, P 55684412276508300000]
/-- `freud/order/Wigner3j.cc`, `case 10`, the values with `m1 = -1`. -/
noncomputable def row10_9 : List Int := [
  N 33030379294147340000, N 83869644985102840000, N 42848251158211725000, P 61282130874106690000,
  P 13600744415237140000, N 61282397503055340000, P 33388822149103825000, P 28565958372935296000,
  N 58220241523209290000, P 28844269341281360000, P 28844269341281360000, N 58220241523209290000,
  P 28565958372935296000, P 33388822149103825000, N 61282397503055340000, P 13600744415237140000,
  P 61282130874106690000, N 42848251158211725000, N 83869644985102840000, N 33030379294147340000]
/-- `freud/order/Wigner3j.cc`, `case 10`, the values with `m1 = 0`. -/
noncomputable def row10_10 : List Int := [
  P 14084201054019469000, P 63378904743087600000, P 79316290146320160000, N 18161206622288262000,
  N 59781546888732794000, P 43833260401093100000, P 23916979189255970000, N 59290998090411680000,
  P 29912575613180666000, P 28844269341281360000, N 57688538682562720000, P 28844269341281360000,
  P 29912575613180666000, N 59290998090411680000, P 23916979189255970000, P 43833260401093100000,
  N 59781546888732794000, N 18161206622288262000, P 79316290146320160000, P 63378904743087600000,
  P 14084201054019469000]
/-- `freud/order/Wigner3j.cc`, `case 10`, the values with `m1 = 1`. -/
noncomputable def row10_11 : List Int := [
  N 33030379294147340000, N 83869644985102840000, N 42848251158211725000, P 61282130874106690000,
  P 13600744415237140000, N 61282397503055340000, P 33388822149103825000, P 28565958372935296000,
  N 58220241523209290000, P 28844269341281360000, P 28844269341281360000, N 58220241523209290000,
  P 28565958372935296000, P 33388822149103825000, N 61282397503055340000, P 13600744415237140000,
  P 61282130874106690000, N 42848251158211725000, N 83869644985102840000, N 33030379294147340000]
/-- `freud/order/Wigner3j.cc`, `case 10`, the values with `m1 = 2`. -/
noncomputable def row10_12 : List Int := [
  P 55684412276508300000, P 84721135292392200000, N 9333263758353732000, N 63535343045261900000,
  P 40327765795963980000, P 27896660938361115000, N 59976018880522500000, P 28565958372935296000,
  P 29912575613180666000, N 58220241523209290000, P 29912575613180666000, P 28565958372935296000,
  N 59976018880522500000, P 27896660938361115000, P 40327765795963980000, N 63535343045261900000,
  N 9333263758353732000, P 84721135292392200000, P 55684412276508300000]
/-- `freud/order/Wigner3j.cc`, `case 10`, the values with `m1 = 3`. -/
noncomputable def row10_13 : List Int := [
  N 77277565157507890000, N 62864465957734570000, P 53967901150019815000, P 26495085090903570000,
  N 63614174488484800000, P 27896660938361115000, P 33388822149103825000, N 59290998090411680000,
  P 28565958372935296000, P 28565958372935296000, N 59290998090411680000, P 33388822149103825000,
  P 27896660938361115000, N 63614174488484800000, P 26495085090903570000, P 53967901150019815000,
  N 62864465957734570000, N 77277565157507890000]
/-- `freud/order/Wigner3j.cc`, `case 10`, the values with `m1 = 4`. -/
noncomputable def row10_14 : List Int := [
  P 92770951614394480000, P 23192737903598620000, N 71385741044031020000, P 26495085090903570000,
  P 40327765795963980000, N 61282397503055340000, P 23916979189255970000, P 33388822149103825000,
  N 59976018880522500000, P 33388822149103825000, P 23916979189255970000, N 61282397503055340000,
  P 40327765795963980000, P 26495085090903570000, N 71385741044031020000, P 23192737903598620000,
  P 92770951614394480000]
/-- `freud/order/Wigner3j.cc`, `case 10`, the values with `m1 = 5`. -/
noncomputable def row10_15 : List Int := [
  N 98398453475501150000, P 23192737903598620000, P 53967901150019815000, N 63535343045261900000,
  P 13600744415237140000, P 43833260401093100000, N 61282397503055340000, P 27896660938361115000,
  P 27896660938361115000, N 61282397503055340000, P 43833260401093100000, P 13600744415237140000,
  N 63535343045261900000, P 53967901150019815000, P 23192737903598620000, N 98398453475501150000]
/-- `freud/order/Wigner3j.cc`, `case 10`, the values with `m1 = 6`. -/
noncomputable def row10_16 : List Int := [
  P 92770951614394480000, N 62864465957734570000, N 9333263758353732000, P 61282130874106690000,
  N 59781546888732794000, P 13600744415237140000, P 40327765795963980000, N 63614174488484800000,
  P 40327765795963980000, P 13600744415237140000, N 59781546888732794000, P 61282130874106690000,
  N 9333263758353732000, N 62864465957734570000, P 92770951614394480000]
/-- `freud/order/Wigner3j.cc`, `case 10`, the values with `m1 = 7`. -/
noncomputable def row10_17 : List Int := [
  N 77277565157507890000, P 84721135292392200000, N 42848251158211725000, N 18161206622288262000,
  P 61282130874106690000, N 63535343045261900000, P 26495085090903570000, P 26495085090903570000,
  N 63535343045261900000, P 61282130874106690000, N 18161206622288262000, N 42848251158211725000,
  P 84721135292392200000, N 77277565157507890000]
/-- `freud/order/Wigner3j.cc`, `case 10`, the values with `m1 = 8`. -/
noncomputable def row10_18 : List Int := [
  P 55684412276508300000, N 83869644985102840000, P 79316290146320160000, N 42848251158211725000,
  N 9333263758353732000, P 53967901150019815000, N 71385741044031020000, P 53967901150019815000,
  N 9333263758353732000, N 42848251158211725000, P 79316290146320160000, N 83869644985102840000,
  P 55684412276508300000]
/-- `freud/order/Wigner3j.cc`, `case 10`, the values with `m1 = 9`. -/
noncomputable def row10_19 : List Int := [
  N 33030379294147340000, P 63378904743087600000, N 83869644985102840000, P 84721135292392200000,
  N 62864465957734570000, P 23192737903598620000, P 23192737903598620000, N 62864465957734570000,
  P 84721135292392200000, N 83869644985102840000, P 63378904743087600000, N 33030379294147340000]
/-- `freud/order/Wigner3j.cc`, `case 10`, the values with `m1 = 10`. -/
noncomputable def row10_20 : List Int := [
  P 14084201054019469000, N 33030379294147340000, P 55684412276508300000, N 77277565157507890000,
  P 92770951614394480000, N 98398453475501150000, P 92770951614394480000, N 77277565157507890000,
  P 55684412276508300000, N 33030379294147340000, P 14084201054019469000]
/-- `case 10` of `getWigner3j`, times `10 ^ 21`; the rows above are its parts with `m1 = -10, ..., 10`. -/
noncomputable def table10 : List (List Int) := [
  row10_0, row10_1, row10_2, row10_3, row10_4, row10_5,
  row10_6, row10_7, row10_8, row10_9, row10_10, row10_11,
  row10_12, row10_13, row10_14, row10_15, row10_16, row10_17,
  row10_18, row10_19, row10_20]

/-- `freud/order/Wigner3j.cc`, `case 11`, the values with `m1 = -11`. -/
noncomputable def row11_0 : List Int := [
  P 10353958773579627000, N 25361915813083190000, P 44619950850085390000, N 64660451816504300000,
  P 81249848865749070000, N 90638000943876330000, P 90638000943876330000, N 81249848865749070000,
  P 64660451816504300000, N 44619950850085390000, P 25361915813083190000, N 10353958773579627000]
/-- `freud/order/Wigner3j.cc`, `case 11`, the values with `m1 = -10`. -/
noncomputable def row11_1 : List Int := [
  N 25361915813083190000, P 51769793867898140000, N 73422428185238240000, P 81056165994644210000,
  N 69578213710795870000, P 40171000415661300000, P 0, N 40171000415661300000,
  P 69578213710795870000, N 81056165994644210000, P 73422428185238240000, N 51769793867898140000,
  P 25361915813083190000]
/-- `freud/order/Wigner3j.cc`, `case 11`, the values with `m1 = -9`. -/
noncomputable def row11_2 : List Int := [
  P 44619950850085390000, N 73422428185238240000, P 78394259285674330000, N 54847866708622926000,
  P 11477428690188944000, P 33950691917997156000, N 62601982698765820000, P 62601982698765820000,
  N 33950691917997156000, N 11477428690188944000, P 54847866708622926000, N 78394259285674330000,
  P 73422428185238240000, N 44619950850085390000]
/-- `freud/order/Wigner3j.cc`, `case 11`, the values with `m1 = -8`. -/
noncomputable def row11_3 : List Int := [
  N 64660451816504300000, P 81056165994644210000, N 54847866708622926000, P 2958273935308464800,
  P 44834919763419640000, N 63256148662822170000, P 44266286482020240000, P 0,
  N 44266286482020240000, P 63256148662822170000, N 44834919763419640000, N 2958273935308464800,
  P 54847866708622926000, N 81056165994644210000, P 64660451816504300000]
/-- `freud/order/Wigner3j.cc`, `case 11`, the values with `m1 = -7`. -/
noncomputable def row11_4 : List Int := [
  P 81249848865749070000, N 69578213710795870000, P 11477428690188944000, P 44834919763419640000,
  N 62045903327390700000, P 33940872484120620000, P 16284840993022895000, N 53737233651318750000,
  P 53737233651318750000, N 16284840993022895000, N 33940872484120620000, P 62045903327390700000,
  N 44834919763419640000, N 11477428690188944000, P 69578213710795870000, N 81249848865749070000]
/-- `freud/order/Wigner3j.cc`, `case 11`, the values with `m1 = -6`. -/
noncomputable def row11_5 : List Int := [
  N 90638000943876330000, P 40171000415661300000, P 33950691917997156000, N 63256148662822170000,
  P 33940872484120620000, P 20941465489420448000, N 55704761048346480000, P 45416251657752460000,
  P 0, N 45416251657752460000, P 55704761048346480000, N 20941465489420448000,
  N 33940872484120620000, P 63256148662822170000, N 33950691917997156000, N 40171000415661300000,
  P 90638000943876330000]
/-- `freud/order/Wigner3j.cc`, `case 11`, the values with `m1 = -5`. -/
noncomputable def row11_6 : List Int := [
  P 90638000943876330000, P 0, N 62601982698765820000, P 44266286482020240000,
  P 16284840993022895000, N 55704761048346480000, P 42427876177450350000, P 7099242818288509000,
  N 49260841322617720000, P 49260841322617720000, N 7099242818288509000, N 42427876177450350000,
  P 55704761048346480000, N 16284840993022895000, N 44266286482020240000, P 62601982698765820000,
  P 0, N 90638000943876330000]
/-- `freud/order/Wigner3j.cc`, `case 11`, the values with `m1 = -4`. -/
noncomputable def row11_7 : List Int := [
  N 81249848865749070000, N 40171000415661300000, P 62601982698765820000, P 0,
  N 53737233651318750000, P 45416251657752460000, P 7099242818288509000, N 50134958272069780000,
  P 45723467685554880000, P 0, N 45723467685554880000, P 50134958272069780000,
  N 7099242818288509000, N 45416251657752460000, P 53737233651318750000, P 0,
  N 62601982698765820000, P 40171000415661300000, P 81249848865749070000]
/-- `freud/order/Wigner3j.cc`, `case 11`, the values with `m1 = -3`. -/
noncomputable def row11_8 : List Int := [
  P 64660451816504300000, P 69578213710795870000, N 33950691917997156000, N 44266286482020240000,
  P 53737233651318750000, P 0, N 49260841322617720000, P 45723467685554880000,
  P 2179780794437816400, N 46852612222282550000, P 46852612222282550000, N 2179780794437816400,
  N 45723467685554880000, P 49260841322617720000, P 0, N 53737233651318750000,
  P 44266286482020240000, P 33950691917997156000, N 69578213710795870000, N 64660451816504300000]
/-- `freud/order/Wigner3j.cc`, `case 11`, the values with `m1 = -2`. -/
noncomputable def row11_9 : List Int := [
  N 44619950850085390000, N 81056165994644210000, N 11477428690188944000, P 63256148662822170000,
  N 16284840993022895000, N 45416251657752460000, P 49260841322617720000, P 0,
  N 46852612222282550000, P 45775396683194140000, P 0, N 45775396683194140000,
  P 46852612222282550000, P 0, N 49260841322617720000, P 45416251657752460000,
  P 16284840993022895000, N 63256148662822170000, P 11477428690188944000, P 81056165994644210000,
  P 44619950850085390000]
/-- `freud/order/Wigner3j.cc`, `case 11`, the values with `m1 = -1`. -/
noncomputable def row11_10 : List Int := [
  P 25361915813083190000, P 73422428185238240000, P 54847866708622926000, N 44834919763419640000,
  N 33940872484120620000, P 55704761048346480000, N 7099242818288509000, N 45723467685554880000,
  P 46852612222282550000, P 0, N 45775396683194140000, P 45775396683194140000,
  P 0, N 46852612222282550000, P 45723467685554880000, P 7099242818288509000,
  N 55704761048346480000, P 33940872484120620000, P 44834919763419640000, N 54847866708622926000,
  N 73422428185238240000, N 25361915813083190000]
/-- `freud/order/Wigner3j.cc`, `case 11`, the values with `m1 = 0`. -/
noncomputable def row11_11 : List Int := [
  N 10353958773579627000, N 51769793867898140000, N 78394259285674330000, N 2958273935308464800,
  P 62045903327390700000, N 20941465489420448000, N 42427876177450350000, P 50134958272069780000,
  N 2179780794437816400, N 45775396683194140000, P 45775396683194140000, P 0,
  N 45775396683194140000, P 45775396683194140000, P 2179780794437816400, N 50134958272069780000,
  P 42427876177450350000, P 20941465489420448000, N 62045903327390700000, P 2958273935308464800,
  P 78394259285674330000, P 51769793867898140000, P 10353958773579627000]
/-- `freud/order/Wigner3j.cc`, `case 11`, the values with `m1 = 1`. -/
noncomputable def row11_12 : List Int := [
  P 25361915813083190000, P 73422428185238240000, P 54847866708622926000, N 44834919763419640000,
  N 33940872484120620000, P 55704761048346480000, N 7099242818288509000, N 45723467685554880000,
  P 46852612222282550000, P 0, N 45775396683194140000, P 45775396683194140000,
  P 0, N 46852612222282550000, P 45723467685554880000, P 7099242818288509000,
  N 55704761048346480000, P 33940872484120620000, P 44834919763419640000, N 54847866708622926000,
  N 73422428185238240000, N 25361915813083190000]
/-- `freud/order/Wigner3j.cc`, `case 11`, the values with `m1 = 2`. -/
noncomputable def row11_13 : List Int := [
  N 44619950850085390000, N 81056165994644210000, N 11477428690188944000, P 63256148662822170000,
  N 16284840993022895000, N 45416251657752460000, P 49260841322617720000, P 0,
  N 46852612222282550000, P 45775396683194140000, P 0, N 45775396683194140000,
  P 46852612222282550000, P 0, N 49260841322617720000, P 45416251657752460000,
  P 16284840993022895000, N 63256148662822170000, P 11477428690188944000, P 81056165994644210000,
  P 44619950850085390000]
/-- `freud/order/Wigner3j.cc`, `case 11`, the values with `m1 = 3`. -/
noncomputable def row11_14 : List Int := [
  P 64660451816504300000, P 69578213710795870000, N 33950691917997156000, N 44266286482020240000,
  P 53737233651318750000, P 0, N 49260841322617720000, P 45723467685554880000,
  P 2179780794437816400, N 46852612222282550000, P 46852612222282550000, N 2179780794437816400,
  N 45723467685554880000, P 49260841322617720000, P 0, N 53737233651318750000,
  P 44266286482020240000, P 33950691917997156000, N 69578213710795870000, N 64660451816504300000]
/-- `freud/order/Wigner3j.cc`, `case 11`, the values with `m1 = 4`. -/
noncomputable def row11_15 : List Int := [
  N 81249848865749070000, N 40171000415661300000, P 62601982698765820000, P 0,
  N 53737233651318750000, P 45416251657752460000, P 7099242818288509000, N 50134958272069780000,
  P 45723467685554880000, P 0, N 45723467685554880000, P 50134958272069780000,
  N 7099242818288509000, N 45416251657752460000, P 53737233651318750000, P 0,
  N 62601982698765820000, P 40171000415661300000, P 81249848865749070000]
/-- `freud/order/Wigner3j.cc`, `case 11`, the values with `m1 = 5`. -/
noncomputable def row11_16 : List Int := [
  P 90638000943876330000, P 0, N 62601982698765820000, P 44266286482020240000,
  P 16284840993022895000, N 55704761048346480000, P 42427876177450350000, P 7099242818288509000,
  N 49260841322617720000, P 49260841322617720000, N 7099242818288509000, N 42427876177450350000,
  P 55704761048346480000, N 16284840993022895000, N 44266286482020240000, P 62601982698765820000,
  P 0, N 90638000943876330000]
/-- `freud/order/Wigner3j.cc`, `case 11`, the values with `m1 = 6`. -/
noncomputable def row11_17 : List Int := [
  N 90638000943876330000, P 40171000415661300000, P 33950691917997156000, N 63256148662822170000,
  P 33940872484120620000, P 20941465489420448000, N 55704761048346480000, P 45416251657752460000,
  P 0, N 45416251657752460000, P 55704761048346480000, N 20941465489420448000,
  N 33940872484120620000, P 63256148662822170000, N 33950691917997156000, N 40171000415661300000,
  P 90638000943876330000]
/-- `freud/order/Wigner3j.cc`, `case 11`, the values with `m1 = 7`. -/
noncomputable def row11_18 : List Int := [
  P 81249848865749070000, N 69578213710795870000, P 11477428690188944000, P 44834919763419640000,
  N 62045903327390700000, P 33940872484120620000, P 16284840993022895000, N 53737233651318750000,
  P 53737233651318750000, N 16284840993022895000, N 33940872484120620000, P 62045903327390700000,
  N 44834919763419640000, N 11477428690188944000, P 69578213710795870000, N 81249848865749070000]
/-- `freud/order/Wigner3j.cc`, `case 11`, the values with `m1 = 8`. -/
noncomputable def row11_19 : List Int := [
  N 64660451816504300000, P 81056165994644210000, N 54847866708622926000, P 2958273935308464800,
  P 44834919763419640000, N 63256148662822170000, P 44266286482020240000, P 0,
  N 44266286482020240000, P 63256148662822170000, N 44834919763419640000, N 2958273935308464800,
  P 54847866708622926000, N 81056165994644210000, P 64660451816504300000]
/-- `freud/order/Wigner3j.cc`, `case 11`, the values with `m1 = 9`. -/
noncomputable def row11_20 : List Int := [
  P 44619950850085390000, N 73422428185238240000, P 78394259285674330000, N 54847866708622926000,
  P 11477428690188944000, P 33950691917997156000, N 62601982698765820000, P 62601982698765820000,
  N 33950691917997156000, N 11477428690188944000, P 54847866708622926000, N 78394259285674330000,
  P 73422428185238240000, N 44619950850085390000]
/-- `freud/order/Wigner3j.cc`, `case 11`, the values with `m1 = 10`. -/
noncomputable def row11_21 : List Int := [
  N 25361915813083190000, P 51769793867898140000, N 73422428185238240000, P 81056165994644210000,
  N 69578213710795870000, P 40171000415661300000, P 0, N 40171000415661300000,
  P 69578213710795870000, N 81056165994644210000, P 73422428185238240000, N 51769793867898140000,
  P 25361915813083190000]
/-- `freud/order/Wigner3j.cc`, `case 11`, the values with `m1 = 11`. -/
noncomputable def row11_22 : List Int := [
  P 10353958773579627000, N 25361915813083190000, P 44619950850085390000, N 64660451816504300000,
  P 81249848865749070000, N 90638000943876330000, P 90638000943876330000, N 81249848865749070000,
  P 64660451816504300000, N 44619950850085390000, P 25361915813083190000, N 10353958773579627000]
/-- `case 11` of `getWigner3j`, times `10 ^ 21`; the rows above are its parts with `m1 = -11, ..., 11`. -/
noncomputable def table11 : List (List Int) := [
  row11_0, row11_1, row11_2, row11_3, row11_4, row11_5,
  row11_6, row11_7, row11_8, row11_9, row11_10, row11_11,
  row11_12, row11_13, row11_14, row11_15, row11_16, row11_17,
  row11_18, row11_19, row11_20, row11_21, row11_22]

/-- `freud/order/Wigner3j.cc`, `case 12`, the values with `m1 = -12`. -/
noncomputable def row12_0 : List Int := [
  P 7641326409130185000, N 19481636234943346000, P 35645677572024400000, N 53737880865632550000,
  P 70359401929508620000, N 82052457600210090000, P 86262976678392150000, N 82052457600210090000,
  P 70359401929508620000, N 53737880865632550000, P 35645677572024400000, N 19481636234943346000,
  P 7641326409130185000]
/-- `freud/order/Wigner3j.cc`, `case 12`, the values with `m1 = -11`. -/
noncomputable def row12_1 : List Int := [
  N 19481636234943346000, P 42027295250216014000, N 63323461736557770000, P 75233033211885570000,
  N 71810263889454310000, P 51703390000407100000, N 18824124776235350000, N 18824124776235350000,
  P 51703390000407100000, N 71810263889454310000, P 75233033211885570000, N 63323461736557770000,
  P 42027295250216014000, N 19481636234943346000]
/-- `freud/order/Wigner3j.cc`, `case 12`, the values with `m1 = -10`. -/
noncomputable def row12_2 : List Int := [
  P 35645677572024400000, N 63323461736557770000, P 74585990384770720000, N 61804004750303530000,
  P 28009605206813570000, P 14399470260610300000, N 49026810799734950000, P 62309052222876320000,
  N 49026810799734950000, P 14399470260610300000, P 28009605206813570000, N 61804004750303530000,
  P 74585990384770720000, N 63323461736557770000, P 35645677572024400000]
/-- `freud/order/Wigner3j.cc`, `case 12`, the values with `m1 = -9`. -/
noncomputable def row12_3 : List Int := [
  N 53737880865632550000, P 75233033211885570000, N 61804004750303530000, P 20432242354848102000,
  P 26938942133122110000, N 56185458863912296000, P 53492787354192600000, N 21703194535981710000,
  N 21703194535981710000, P 53492787354192600000, N 56185458863912296000, P 26938942133122110000,
  P 20432242354848102000, N 61804004750303530000, P 75233033211885570000, N 53737880865632550000]
/-- `freud/order/Wigner3j.cc`, `case 12`, the values with `m1 = -8`. -/
noncomputable def row12_4 : List Int := [
  P 70359401929508620000, N 71810263889454310000, P 28009605206813570000, P 26938942133122110000,
  N 57143832276973554000, P 46682675344689284000, N 6028665148883808000, N 37098865030348760000,
  P 55231071662635446000, N 37098865030348760000, N 6028665148883808000, P 46682675344689284000,
  N 57143832276973554000, P 26938942133122110000, P 28009605206813570000, N 71810263889454310000,
  P 70359401929508620000]
/-- `freud/order/Wigner3j.cc`, `case 12`, the values with `m1 = -7`. -/
noncomputable def row12_5 : List Int := [
  N 82052457600210090000, P 51703390000407100000, P 14399470260610300000, N 56185458863912296000,
  P 46682675344689284000, N 1162810540519810800, N 42362081065081330000, P 52203804526380730000,
  N 23012946526098102000, N 23012946526098102000, P 52203804526380730000, N 42362081065081330000,
  N 1162810540519810800, P 46682675344689284000, N 56185458863912296000, P 14399470260610300000,
  P 51703390000407100000, N 82052457600210090000]
/-- `freud/order/Wigner3j.cc`, `case 12`, the values with `m1 = -6`. -/
noncomputable def row12_6 : List Int := [
  P 86262976678392150000, N 18824124776235350000, N 49026810799734950000, P 53492787354192600000,
  N 6028665148883808000, N 42362081065081330000, P 50717774026732500000, N 16139152732150042000,
  N 30621285691690990000, P 51728638077676120000, N 30621285691690990000, N 16139152732150042000,
  P 50717774026732500000, N 42362081065081330000, N 6028665148883808000, P 53492787354192600000,
  N 49026810799734950000, N 18824124776235350000, P 86262976678392150000]
/-- `freud/order/Wigner3j.cc`, `case 12`, the values with `m1 = -5`. -/
noncomputable def row12_7 : List Int := [
  N 82052457600210090000, N 18824124776235350000, P 62309052222876320000, N 21703194535981710000,
  N 37098865030348760000, P 52203804526380730000, N 16139152732150042000, N 32759782671637074000,
  P 50620473739125930000, N 23705039958792577000, N 23705039958792577000, P 50620473739125930000,
  N 32759782671637074000, N 16139152732150042000, P 52203804526380730000, N 37098865030348760000,
  N 21703194535981710000, P 62309052222876320000, N 18824124776235350000, N 82052457600210090000]
/-- `freud/order/Wigner3j.cc`, `case 12`, the values with `m1 = -4`. -/
noncomputable def row12_8 : List Int := [
  P 70359401929508620000, P 51703390000407100000, N 49026810799734950000, N 21703194535981710000,
  P 55231071662635446000, N 23012946526098102000, N 30621285691690990000, P 50620473739125930000,
  N 21455165913049740000, N 26863013180803660000, P 49790543018078100000, N 26863013180803660000,
  N 21455165913049740000, P 50620473739125930000, N 30621285691690990000, N 23012946526098102000,
  P 55231071662635446000, N 21703194535981710000, N 49026810799734950000, P 51703390000407100000,
  P 70359401929508620000]
/-- `freud/order/Wigner3j.cc`, `case 12`, the values with `m1 = -3`. -/
noncomputable def row12_9 : List Int := [
  N 53737880865632550000, N 71810263889454310000, P 14399470260610300000, P 53492787354192600000,
  N 37098865030348760000, N 23012946526098102000, P 51728638077676120000, N 23705039958792577000,
  N 26863013180803660000, P 49415076503894510000, N 24073417773156540000, N 24073417773156540000,
  P 49415076503894510000, N 26863013180803660000, N 23705039958792577000, P 51728638077676120000,
  N 23012946526098102000, N 37098865030348760000, P 53492787354192600000, P 14399470260610300000,
  N 71810263889454310000, N 53737880865632550000]
/-- `freud/order/Wigner3j.cc`, `case 12`, the values with `m1 = -2`. -/
noncomputable def row12_10 : List Int := [
  P 35645677572024400000, P 75233033211885570000, P 28009605206813570000, N 56185458863912296000,
  N 6028665148883808000, P 52203804526380730000, N 30621285691690990000, N 23705039958792577000,
  P 49790543018078100000, N 24073417773156540000, N 24864911107055200000, P 48784569764154750000,
  N 24864911107055200000, N 24073417773156540000, P 49790543018078100000, N 23705039958792577000,
  N 30621285691690990000, P 52203804526380730000, N 6028665148883808000, N 56185458863912296000,
  P 28009605206813570000, P 75233033211885570000, P 35645677572024400000]
/-- `freud/order/Wigner3j.cc`, `case 12`, the values with `m1 = -1`. -/
noncomputable def row12_11 : List Int := [
  N 19481636234943346000, N 63323461736557770000, N 61804004750303530000, P 26938942133122110000,
  P 46682675344689284000, N 42362081065081330000, N 16139152732150042000, P 50620473739125930000,
  N 26863013180803660000, N 24073417773156540000, P 48784569764154750000, N 24235419686623422000,
  N 24235419686623422000, P 48784569764154750000, N 24073417773156540000, N 26863013180803660000,
  P 50620473739125930000, N 16139152732150042000, N 42362081065081330000, P 46682675344689284000,
  P 26938942133122110000, N 61804004750303530000, N 63323461736557770000, N 19481636234943346000]
/-- `freud/order/Wigner3j.cc`, `case 12`, the values with `m1 = 0`. -/
noncomputable def row12_12 : List Int := [
  P 7641326409130185000, P 42027295250216014000, P 74585990384770720000, P 20432242354848102000,
  N 57143832276973554000, N 1162810540519810800, P 50717774026732500000, N 32759782671637074000,
  N 21455165913049740000, P 49415076503894510000, N 24864911107055200000, N 24235419686623422000,
  P 48470839373246845000, N 24235419686623422000, N 24864911107055200000, P 49415076503894510000,
  N 21455165913049740000, N 32759782671637074000, P 50717774026732500000, N 1162810540519810800,
  N 57143832276973554000, P 20432242354848102000, P 74585990384770720000, P 42027295250216014000,
  P 7641326409130185000]
/-- `freud/order/Wigner3j.cc`, `case 12`, the values with `m1 = 1`. -/
noncomputable def row12_13 : List Int := [
  N 19481636234943346000, N 63323461736557770000, N 61804004750303530000, P 26938942133122110000,
  P 46682675344689284000, N 42362081065081330000, N 16139152732150042000, P 50620473739125930000,
  N 26863013180803660000, N 24073417773156540000, P 48784569764154750000, N 24235419686623422000,
  N 24235419686623422000, P 48784569764154750000, N 24073417773156540000, N 26863013180803660000,
  P 50620473739125930000, N 16139152732150042000, N 42362081065081330000, P 46682675344689284000,
  P 26938942133122110000, N 61804004750303530000, N 63323461736557770000, N 19481636234943346000]
/-- `freud/order/Wigner3j.cc`, `case 12`, the values with `m1 = 2`. -/
noncomputable def row12_14 : List Int := [
  P 35645677572024400000, P 75233033211885570000, P 28009605206813570000, N 56185458863912296000,
  N 6028665148883808000, P 52203804526380730000, N 30621285691690990000, N 23705039958792577000,
  P 49790543018078100000, N 24073417773156540000, N 24864911107055200000, P 48784569764154750000,
  N 24864911107055200000, N 24073417773156540000, P 49790543018078100000, N 23705039958792577000,
  N 30621285691690990000, P 52203804526380730000, N 6028665148883808000, N 56185458863912296000,
  P 28009605206813570000, P 75233033211885570000, P 35645677572024400000]
/-- `freud/order/Wigner3j.cc`, `case 12`, the values with `m1 = 3`. -/
noncomputable def row12_15 : List Int := [
  N 53737880865632550000, N 71810263889454310000, P 14399470260610300000, P 53492787354192600000,
  N 37098865030348760000, N 23012946526098102000, P 51728638077676120000, N 23705039958792577000,
  N 26863013180803660000, P 49415076503894510000, N 24073417773156540000, N 24073417773156540000,
  P 49415076503894510000, N 26863013180803660000, N 23705039958792577000, P 51728638077676120000,
  N 23012946526098102000, N 37098865030348760000, P 53492787354192600000, P 14399470260610300000,
  N 71810263889454310000, N 53737880865632550000]
/-- `freud/order/Wigner3j.cc`, `case 12`, the values with `m1 = 4`. -/
noncomputable def row12_16 : List Int := [
  P 70359401929508620000, P 51703390000407100000, N 49026810799734950000, N 21703194535981710000,
  P 55231071662635446000, N 23012946526098102000, N 30621285691690990000, P 50620473739125930000,
  N 21455165913049740000, N 26863013180803660000, P 49790543018078100000, N 26863013180803660000,
  N 21455165913049740000, P 50620473739125930000, N 30621285691690990000, N 23012946526098102000,
  P 55231071662635446000, N 21703194535981710000, N 49026810799734950000, P 51703390000407100000,
  P 70359401929508620000]
/-- `freud/order/Wigner3j.cc`, `case 12`, the values with `m1 = 5`. -/
noncomputable def row12_17 : List Int := [
  N 82052457600210090000, N 18824124776235350000, P 62309052222876320000, N 21703194535981710000,
  N 37098865030348760000, P 52203804526380730000, N 16139152732150042000, N 32759782671637074000,
  P 50620473739125930000, N 23705039958792577000, N 23705039958792577000, P 50620473739125930000,
  N 32759782671637074000, N 16139152732150042000, P 52203804526380730000, N 37098865030348760000,
  N 21703194535981710000, P 62309052222876320000, N 18824124776235350000, N 82052457600210090000]
/-- `freud/order/Wigner3j.cc`, `case 12`, the values with `m1 = 6`. -/
noncomputable def row12_18 : List Int := [
  P 86262976678392150000, N 18824124776235350000, N 49026810799734950000, P 53492787354192600000,
  N 6028665148883808000, N 42362081065081330000, P 50717774026732500000, N 16139152732150042000,
  N 30621285691690990000, P 51728638077676120000, N 30621285691690990000, N 16139152732150042000,
  P 50717774026732500000, N 42362081065081330000, N 6028665148883808000, P 53492787354192600000,
  N 49026810799734950000, N 18824124776235350000, P 86262976678392150000]
/-- `freud/order/Wigner3j.cc`, `case 12`, the values with `m1 = 7`. -/
noncomputable def row12_19 : List Int := [
  N 82052457600210090000, P 51703390000407100000, P 14399470260610300000, N 56185458863912296000,
  P 46682675344689284000, N 1162810540519810800, N 42362081065081330000, P 52203804526380730000,
  N 23012946526098102000, N 23012946526098102000, P 52203804526380730000, N 42362081065081330000,
  N 1162810540519810800, P 46682675344689284000, N 56185458863912296000, P 14399470260610300000,
  P 51703390000407100000, N 82052457600210090000]
/-- `freud/order/Wigner3j.cc`, `case 12`, the values with `m1 = 8`. -/
noncomputable def row12_20 : List Int := [
  P 70359401929508620000, N 71810263889454310000, P 28009605206813570000, P 26938942133122110000,
  N 57143832276973554000, P 46682675344689284000, N 6028665148883808000, N 37098865030348760000,
  P 55231071662635446000, N 37098865030348760000, N 6028665148883808000, P 46682675344689284000,
  N 57143832276973554000, P 26938942133122110000, P 28009605206813570000, N 71810263889454310000,
  P 70359401929508620000]
/-- `freud/order/Wigner3j.cc`, `case 12`, the values with `m1 = 9`. -/
noncomputable def row12_21 : List Int := [
  N 53737880865632550000, P 75233033211885570000, N 61804004750303530000, P 20432242354848102000,
  P 26938942133122110000, N 56185458863912296000, P 53492787354192600000, N 21703194535981710000,
  N 21703194535981710000, P 53492787354192600000, N 56185458863912296000, P 26938942133122110000,
  P 20432242354848102000, N 61804004750303530000, P 75233033211885570000, N 53737880865632550000]
/-- `freud/order/Wigner3j.cc`, `case 12`, the values with `m1 = 10`. -/
noncomputable def row12_22 : List Int := [
  P 35645677572024400000, N 63323461736557770000, P 74585990384770720000, N 61804004750303530000,
  P 28009605206813570000, P 14399470260610300000, N 49026810799734950000, P 62309052222876320000,
  N 49026810799734950000, P 14399470260610300000, P 28009605206813570000, N 61804004750303530000,
  P 74585990384770720000, N 63323461736557770000, P 35645677572024400000]
/-- `freud/order/Wigner3j.cc`, `case 12`, the values with `m1 = 11`. -/
noncomputable def row12_23 : List Int := [
  N 19481636234943346000, P 42027295250216014000, N 63323461736557770000, P 75233033211885570000,
  N 71810263889454310000, P 51703390000407100000, N 18824124776235350000, N 18824124776235350000,
  P 51703390000407100000, N 71810263889454310000, P 75233033211885570000, N 63323461736557770000,
  P 42027295250216014000, N 19481636234943346000]
/-- `freud/order/Wigner3j.cc`, `case 12`, the values with `m1 = 12`. -/
noncomputable def row12_24 : List Int := [
  P 7641326409130185000, N 19481636234943346000, P 35645677572024400000, N 53737880865632550000,
  P 70359401929508620000, N 82052457600210090000, P 86262976678392150000, N 82052457600210090000,
  P 70359401929508620000, N 53737880865632550000, P 35645677572024400000, N 19481636234943346000,
  P 7641326409130185000]
/-- `case 12` of `getWigner3j`, times `10 ^ 21`; the rows above are its parts with `m1 = -12, ..., 12`. -/
noncomputable def table12 : List (List Int) := [
  row12_0, row12_1, row12_2, row12_3, row12_4, row12_5,
  row12_6, row12_7, row12_8, row12_9, row12_10, row12_11,
  row12_12, row12_13, row12_14, row12_15, row12_16, row12_17,
  row12_18, row12_19, row12_20, row12_21, row12_22, row12_23,
  row12_24]

/-- `freud/order/Wigner3j.cc`, `case 13`, the values with `m1 = -13`. -/
noncomputable def row13_0 : List Int := [
  P 5657913903798974600, N 14969433128866713000, P 28402502381279792000, N 44406514929192405000,
  P 60363892585845014000, N 73255190542420730000, P 80459054315714580000, N 80459054315714580000,
  P 73255190542420730000, N 60363892585845014000, P 44406514929192405000, N 28402502381279792000,
  P 14969433128866713000, N 5657913903798974600]
/-- `freud/order/Wigner3j.cc`, `case 13`, the values with `m1 = -12`. -/
noncomputable def row13_1 : List Int := [
  N 14969433128866713000, P 33947483422793850000, N 53973058710758276000, P 68271119124794900000,
  N 70820780000481070000, P 58694521265462804000, N 33276665697944297000, P 0,
  P 33276665697944297000, N 58694521265462804000, P 70820780000481070000, N 68271119124794900000,
  P 53973058710758276000, N 33947483422793850000, P 14969433128866713000]
/-- `freud/order/Wigner3j.cc`, `case 13`, the values with `m1 = -11`. -/
noncomputable def row13_2 : List Int := [
  P 28402502381279792000, N 53973058710758276000, P 69026549626347500000, N 64767670452909930000,
  P 40264109410575070000, N 3183157342390924000, N 33276665697944297000, P 55682512011615270000,
  N 55682512011615270000, P 33276665697944297000, P 3183157342390924000, N 40264109410575070000,
  P 64767670452909930000, N 69026549626347500000, P 53973058710758276000, N 28402502381279792000]
/-- `freud/order/Wigner3j.cc`, `case 13`, the values with `m1 = -10`. -/
noncomputable def row13_3 : List Int := [
  N 44406514929192405000, P 68271119124794900000, N 64767670452909930000, P 33947483422793850000,
  P 9549472027172773000, N 44790994094244170000, P 55343537821422950000, N 37121674674410180000,
  P 0, P 37121674674410180000, N 55343537821422950000, P 44790994094244170000,
  N 9549472027172773000, N 33947483422793850000, P 64767670452909930000, N 68271119124794900000,
  P 44406514929192405000]
/-- `freud/order/Wigner3j.cc`, `case 13`, the values with `m1 = -9`. -/
noncomputable def row13_4 : List Int := [
  P 60363892585845014000, N 70820780000481070000, P 40264109410575070000, P 9549472027172773000,
  N 47378879037899245000, P 52209771698432730000, N 24129010290703120000, N 17809857162989974000,
  P 47715056307592374000, N 47715056307592374000, P 17809857162989974000, P 24129010290703120000,
  N 52209771698432730000, P 47378879037899245000, N 9549472027172773000, N 40264109410575070000,
  P 70820780000481070000, N 60363892585845014000]
/-- `freud/order/Wigner3j.cc`, `case 13`, the values with `m1 = -8`. -/
noncomputable def row13_5 : List Int := [
  N 73255190542420730000, P 58694521265462804000, N 3183157342390924000, N 44790994094244170000,
  P 52209771698432730000, N 19778099037627720000, N 25012049701003517000, P 49749080202959800000,
  N 38381975382757170000, P 0, P 38381975382757170000, N 49749080202959800000,
  P 25012049701003517000, P 19778099037627720000, N 52209771698432730000, P 44790994094244170000,
  P 3183157342390924000, N 58694521265462804000, P 73255190542420730000]
/-- `freud/order/Wigner3j.cc`, `case 13`, the values with `m1 = -7`. -/
noncomputable def row13_6 : List Int := [
  P 80459054315714580000, N 33276665697944297000, N 33276665697944297000, P 55343537821422950000,
  N 24129010290703120000, N 25012049701003517000, P 49838841604768360000, N 33096508611813985000,
  N 9278723150424770000, P 43521069295790846000, N 43521069295790846000, P 9278723150424770000,
  P 33096508611813985000, N 49838841604768360000, P 25012049701003517000, P 24129010290703120000,
  N 55343537821422950000, P 33276665697944297000, P 33276665697944297000, N 80459054315714580000]
/-- `freud/order/Wigner3j.cc`, `case 13`, the values with `m1 = -6`. -/
noncomputable def row13_7 : List Int := [
  N 80459054315714580000, P 0, P 55682512011615270000, N 37121674674410180000,
  N 17809857162989974000, P 49749080202959800000, N 33096508611813985000, N 12103015828996068000,
  P 45006855557109790000, N 38815683786183650000, P 0, P 38815683786183650000,
  N 45006855557109790000, P 12103015828996068000, P 33096508611813985000, N 49749080202959800000,
  P 17809857162989974000, P 37121674674410180000, N 55682512011615270000, P 0,
  P 80459054315714580000]
/-- `freud/order/Wigner3j.cc`, `case 13`, the values with `m1 = -5`. -/
noncomputable def row13_8 : List Int := [
  P 73255190542420730000, P 33276665697944297000, N 55682512011615270000, P 0,
  P 47715056307592374000, N 38381975382757170000, N 9278723150424770000, P 45006855557109790000,
  N 37145434759723706000, N 4223978507798474000, P 41049692473055560000, N 41049692473055560000,
  P 4223978507798474000, P 37145434759723706000, N 45006855557109790000, P 9278723150424770000,
  P 38381975382757170000, N 47715056307592374000, P 0, P 55682512011615270000,
  N 33276665697944297000, N 73255190542420730000]
/-- `freud/order/Wigner3j.cc`, `case 13`, the values with `m1 = -4`. -/
noncomputable def row13_9 : List Int := [
  N 60363892585845014000, N 58694521265462804000, P 33276665697944297000, P 37121674674410180000,
  N 47715056307592374000, P 0, P 43521069295790846000, N 38815683786183650000,
  N 4223978507798474000, P 41622566631425500000, N 38943157639297700000, P 0,
  P 38943157639297700000, N 41622566631425500000, P 4223978507798474000, P 38815683786183650000,
  N 43521069295790846000, P 0, P 47715056307592374000, N 37121674674410180000,
  N 33276665697944297000, P 58694521265462804000, P 60363892585845014000]
/-- `freud/order/Wigner3j.cc`, `case 13`, the values with `m1 = -3`. -/
noncomputable def row13_10 : List Int := [
  P 44406514929192405000, P 70820780000481070000, P 3183157342390924000, N 55343537821422950000,
  P 17809857162989974000, P 38381975382757170000, N 43521069295790846000, P 0,
  P 41049692473055560000, N 38943157639297700000, N 1328379786109324500, P 39624430724266830000,
  N 39624430724266830000, P 1328379786109324500, P 38943157639297700000, N 41049692473055560000,
  P 0, P 43521069295790846000, N 38381975382757170000, N 17809857162989974000,
  P 55343537821422950000, N 3183157342390924000, N 70820780000481070000, N 44406514929192405000]
/-- `freud/order/Wigner3j.cc`, `case 13`, the values with `m1 = -2`. -/
noncomputable def row13_11 : List Int := [
  N 28402502381279792000, N 68271119124794900000, N 40264109410575070000, P 44790994094244170000,
  P 24129010290703120000, N 49749080202959800000, P 9278723150424770000, P 38815683786183650000,
  N 41049692473055560000, P 0, P 39624430724266830000, N 38965807059206850000,
  P 0, P 38965807059206850000, N 39624430724266830000, P 0,
  P 41049692473055560000, N 38815683786183650000, N 9278723150424770000, P 49749080202959800000,
  N 24129010290703120000, N 44790994094244170000, P 40264109410575070000, P 68271119124794900000,
  P 28402502381279792000]
/-- `freud/order/Wigner3j.cc`, `case 13`, the values with `m1 = -1`. -/
noncomputable def row13_12 : List Int := [
  P 14969433128866713000, P 53973058710758276000, P 64767670452909930000, N 9549472027172773000,
  N 52209771698432730000, P 25012049701003517000, P 33096508611813985000, N 45006855557109790000,
  P 4223978507798474000, P 38943157639297700000, N 39624430724266830000, P 0,
  P 38965807059206850000, N 38965807059206850000, P 0, P 39624430724266830000,
  N 38943157639297700000, N 4223978507798474000, P 45006855557109790000, N 33096508611813985000,
  N 25012049701003517000, P 52209771698432730000, P 9549472027172773000, N 64767670452909930000,
  N 53973058710758276000, N 14969433128866713000]
/-- `freud/order/Wigner3j.cc`, `case 13`, the values with `m1 = 0`. -/
noncomputable def row13_13 : List Int := [
  N 5657913903798974600, N 33947483422793850000, N 69026549626347500000, N 33947483422793850000,
  P 47378879037899245000, P 19778099037627720000, N 49838841604768360000, P 12103015828996068000,
  P 37145434759723706000, N 41622566631425500000, P 1328379786109324500, P 38965807059206850000,
  N 38965807059206850000, P 0, P 38965807059206850000, N 38965807059206850000,
  N 1328379786109324500, P 41622566631425500000, N 37145434759723706000, N 12103015828996068000,
  P 49838841604768360000, N 19778099037627720000, N 47378879037899245000, P 33947483422793850000,
  P 69026549626347500000, P 33947483422793850000, P 5657913903798974600]
/-- `freud/order/Wigner3j.cc`, `case 13`, the values with `m1 = 1`. -/
noncomputable def row13_14 : List Int := [
  P 14969433128866713000, P 53973058710758276000, P 64767670452909930000, N 9549472027172773000,
  N 52209771698432730000, P 25012049701003517000, P 33096508611813985000, N 45006855557109790000,
  P 4223978507798474000, P 38943157639297700000, N 39624430724266830000, P 0,
  P 38965807059206850000, N 38965807059206850000, P 0, P 39624430724266830000,
  N 38943157639297700000, N 4223978507798474000, P 45006855557109790000, N 33096508611813985000,
  N 25012049701003517000, P 52209771698432730000, P 9549472027172773000, N 64767670452909930000,
  N 53973058710758276000, N 14969433128866713000]
/-- `freud/order/Wigner3j.cc`, `case 13`, the values with `m1 = 2`. -/
noncomputable def row13_15 : List Int := [
  N 28402502381279792000, N 68271119124794900000, N 40264109410575070000, P 44790994094244170000,
  P 24129010290703120000, N 49749080202959800000, P 9278723150424770000, P 38815683786183650000,
  N 41049692473055560000, P 0, P 39624430724266830000, N 38965807059206850000,
  P 0, P 38965807059206850000, N 39624430724266830000, P 0,
  P 41049692473055560000, N 38815683786183650000, N 9278723150424770000, P 49749080202959800000,
  N 24129010290703120000, N 44790994094244170000, P 40264109410575070000, P 68271119124794900000,
  P 28402502381279792000]
/-- `freud/order/Wigner3j.cc`, `case 13`, the values with `m1 = 3`. -/
noncomputable def row13_16 : List Int := [
  P 44406514929192405000, P 70820780000481070000, P 3183157342390924000, N 55343537821422950000,
  P 17809857162989974000, P 38381975382757170000, N 43521069295790846000, P 0,
  P 41049692473055560000, N 38943157639297700000, N 1328379786109324500, P 39624430724266830000,
  N 39624430724266830000, P 1328379786109324500, P 38943157639297700000, N 41049692473055560000,
  P 0, P 43521069295790846000, N 38381975382757170000, N 17809857162989974000,
  P 55343537821422950000, N 3183157342390924000, N 70820780000481070000, N 44406514929192405000]
/-- `freud/order/Wigner3j.cc`, `case 13`, the values with `m1 = 4`. -/
noncomputable def row13_17 : List Int := [
  N 60363892585845014000, N 58694521265462804000, P 33276665697944297000, P 37121674674410180000,
  N 47715056307592374000, P 0, P 43521069295790846000, N 38815683786183650000,
  N 4223978507798474000, P 41622566631425500000, N 38943157639297700000, P 0,
  P 38943157639297700000, N 41622566631425500000, P 4223978507798474000, P 38815683786183650000,
  N 43521069295790846000, P 0, P 47715056307592374000, N 37121674674410180000,
  N 33276665697944297000, P 58694521265462804000, P 60363892585845014000]
/-- `freud/order/Wigner3j.cc`, `case 13`, the values with `m1 = 5`. -/
noncomputable def row13_18 : List Int := [
  P 73255190542420730000, P 33276665697944297000, N 55682512011615270000, P 0,
  P 47715056307592374000, N 38381975382757170000, N 9278723150424770000, P 45006855557109790000,
  N 37145434759723706000, N 4223978507798474000, P 41049692473055560000, N 41049692473055560000,
  P 4223978507798474000, P 37145434759723706000, N 45006855557109790000, P 9278723150424770000,
  P 38381975382757170000, N 47715056307592374000, P 0, P 55682512011615270000,
  N 33276665697944297000, N 73255190542420730000]
/-- `freud/order/Wigner3j.cc`, `case 13`, the values with `m1 = 6`. -/
noncomputable def row13_19 : List Int := [
  N 80459054315714580000, P 0, P 55682512011615270000, N 37121674674410180000,
  N 17809857162989974000, P 49749080202959800000, N 33096508611813985000, N 12103015828996068000,
  P 45006855557109790000, N 38815683786183650000, P 0, P 38815683786183650000,
  N 45006855557109790000, P 12103015828996068000, P 33096508611813985000, N 49749080202959800000,
  P 17809857162989974000, P 37121674674410180000, N 55682512011615270000, P 0,
  P 80459054315714580000]
/-- `freud/order/Wigner3j.cc`, `case 13`, the values with `m1 = 7`. -/
noncomputable def row13_20 : List Int := [
  P 80459054315714580000, N 33276665697944297000, N 33276665697944297000, P 55343537821422950000,
  N 24129010290703120000, N 25012049701003517000, P 49838841604768360000, N 33096508611813985000,
  N 9278723150424770000, P 43521069295790846000, N 43521069295790846000, P 9278723150424770000,
  P 33096508611813985000, N 49838841604768360000, P 25012049701003517000, P 24129010290703120000,
  N 55343537821422950000, P 33276665697944297000, P 33276665697944297000, N 80459054315714580000]
/-- `freud/order/Wigner3j.cc`, `case 13`, the values with `m1 = 8`. -/
noncomputable def row13_21 : List Int := [
  N 73255190542420730000, P 58694521265462804000, N 3183157342390924000, N 44790994094244170000,
  P 52209771698432730000, N 19778099037627720000, N 25012049701003517000, P 49749080202959800000,
  N 38381975382757170000, P 0, P 38381975382757170000, N 49749080202959800000,
  P 25012049701003517000, P 19778099037627720000, N 52209771698432730000, P 44790994094244170000,
  P 3183157342390924000, N 58694521265462804000, P 73255190542420730000]
/-- `freud/order/Wigner3j.cc`, `case 13`, the values with `m1 = 9`. -/
noncomputable def row13_22 : List Int := [
  P 60363892585845014000, N 70820780000481070000, P 40264109410575070000, P 9549472027172773000,
  N 47378879037899245000, P 52209771698432730000, N 24129010290703120000, N 17809857162989974000,
  P 47715056307592374000, N 47715056307592374000, P 17809857162989974000, P 24129010290703120000,
  N 52209771698432730000, P 47378879037899245000, N 9549472027172773000, N 40264109410575070000,
  P 70820780000481070000, N 60363892585845014000]
/-- `freud/order/Wigner3j.cc`, `case 13`, the values with `m1 = 10`. -/
noncomputable def row13_23 : List Int := [
  N 44406514929192405000, P 68271119124794900000, N 64767670452909930000, P 33947483422793850000,
  P 9549472027172773000, N 44790994094244170000, P 55343537821422950000, N 37121674674410180000,
  P 0, P 37121674674410180000, N 55343537821422950000, P 44790994094244170000,
  N 9549472027172773000, N 33947483422793850000, P 64767670452909930000, N 68271119124794900000,
  P 44406514929192405000]
/-- `freud/order/Wigner3j.cc`, `case 13`, the values with `m1 = 11`. -/
noncomputable def row13_24 : List Int := [
  P 28402502381279792000, N 53973058710758276000, P 69026549626347500000, N 64767670452909930000,
  P 40264109410575070000, N 3183157342390924000, N 33276665697944297000, P 55682512011615270000,
  N 55682512011615270000, P 33276665697944297000, P 3183157342390924000, N 40264109410575070000,
  P 64767670452909930000, N 69026549626347500000, P 53973058710758276000, N 28402502381279792000]
/-- `freud/order/Wigner3j.cc`, `case 13`, the values with `m1 = 12`. -/
noncomputable def row13_25 : List Int := [
  N 14969433128866713000, P 33947483422793850000, N 53973058710758276000, P 68271119124794900000,
  N 70820780000481070000, P 58694521265462804000, N 33276665697944297000, P 0,
  P 33276665697944297000, N 58694521265462804000, P 70820780000481070000, N 68271119124794900000,
  P 53973058710758276000, N 33947483422793850000, P 14969433128866713000]
/-- `freud/order/Wigner3j.cc`, `case 13`, the values with `m1 = 13`. -/
noncomputable def row13_26 : List Int := [
  P 5657913903798974600, N 14969433128866713000, P 28402502381279792000, N 44406514929192405000,
  P 60363892585845014000, N 73255190542420730000, P 80459054315714580000, N 80459054315714580000,
  P 73255190542420730000, N 60363892585845014000, P 44406514929192405000, N 28402502381279792000,
  P 14969433128866713000, N 5657913903798974600]
/-- `case 13` of `getWigner3j`, times `10 ^ 21`; the rows above are its parts with `m1 = -13, ..., 13`. -/
noncomputable def table13 : List (List Int) := [
  row13_0, row13_1, row13_2, row13_3, row13_4, row13_5,
  row13_6, row13_7, row13_8, row13_9, row13_10, row13_11,
  row13_12, row13_13, row13_14, row13_15, row13_16, row13_17,
  row13_18, row13_19, row13_20, row13_21, row13_22, row13_23,
  row13_24, row13_25, row13_26]

/-- `freud/order/Wigner3j.cc`, `case 14`, the values with `m1 = -14`. -/
noncomputable def row14_0 : List Int := [
  P 4201102820261771000, N 11505193905279716000, P 22580249176036234000, N 36517119480472225000,
  P 51384141814368620000, N 64656960549492650000, P 73843452632832430000, N 77126970851994440000,
  P 73843452632832430000, N 64656960549492650000, P 51384141814368620000, N 36517119480472225000,
  P 22580249176036234000, N 11505193905279716000, P 4201102820261771000]
/-- `freud/order/Wigner3j.cc`, `case 14`, the values with `m1 = -13`. -/
noncomputable def row14_1 : List Int := [
  N 11505193905279716000, P 27307168331701510000, N 45565775679734646000, P 60879763717892300000,
  N 67630651719233190000, P 62052246484303490000, N 43686375723537410000, P 15743476999491460000,
  P 15743476999491460000, N 43686375723537410000, P 62052246484303490000, N 67630651719233190000,
  P 60879763717892300000, N 45565775679734646000, P 27307168331701510000, N 11505193905279716000]
/-- `freud/order/Wigner3j.cc`, `case 14`, the values with `m1 = -12`. -/
noncomputable def row14_2 : List Int := [
  P 22580249176036234000, N 45565775679734646000, P 62549753101675250000, N 64720200850134930000,
  P 48603494058383620000, N 18003182691287905000, N 17251717088799627000, P 45031522427856160000,
  N 55537766549493016000, P 45031522427856160000, N 17251717088799627000, N 18003182691287905000,
  P 48603494058383620000, N 64720200850134930000, P 62549753101675250000, N 45565775679734646000,
  P 22580249176036234000]
/-- `freud/order/Wigner3j.cc`, `case 14`, the values with `m1 = -11`. -/
noncomputable def row14_3 : List Int := [
  N 36517119480472225000, P 60879763717892300000, N 64720200850134930000, P 43644790410497285000,
  N 6087976371789230000, N 31170196317796602000, P 51432856304042520000, N 46041613646013335000,
  P 18279716826986547000, P 18279716826986547000, N 46041613646013335000, P 51432856304042520000,
  N 31170196317796602000, N 6087976371789230000, P 43644790410497285000, N 64720200850134930000,
  P 60879763717892300000, N 36517119480472225000]
/-- `freud/order/Wigner3j.cc`, `case 14`, the values with `m1 = -10`. -/
noncomputable def row14_4 : List Int := [
  P 51384141814368620000, N 67630651719233190000, P 48603494058383620000, N 6087976371789230000,
  N 34822474487947570000, P 51623340412812635000, N 36844122645001530000, P 959796934457610700,
  P 34479901083459210000, N 49049627321506420000, P 34479901083459210000, P 959796934457610700,
  N 36844122645001530000, P 51623340412812635000, N 34822474487947570000, N 6087976371789230000,
  P 48603494058383620000, N 67630651719233190000, P 51384141814368620000]
/-- `freud/order/Wigner3j.cc`, `case 14`, the values with `m1 = -9`. -/
noncomputable def row14_5 : List Int := [
  N 64656960549492650000, P 62052246484303490000, N 18003182691287905000, N 31170196317796602000,
  P 51623340412812635000, N 33468785801418770000, N 6852323642503038000, P 40487185482261200000,
  N 45425881918605260000, P 19490345546795060000, P 19490345546795060000, N 45425881918605260000,
  P 40487185482261200000, N 6852323642503038000, N 33468785801418770000, P 51623340412812635000,
  N 31170196317796602000, N 18003182691287905000, P 62052246484303490000, N 64656960549492650000]
/-- `freud/order/Wigner3j.cc`, `case 14`, the values with `m1 = -8`. -/
noncomputable def row14_6 : List Int := [
  P 73843452632832430000, N 43686375723537410000, N 17251717088799627000, P 51432856304042520000,
  N 36844122645001530000, N 6852323642503038000, P 41921729398708765000, N 42467434126869000000,
  P 10558770436396890000, P 28534007200298542000, N 45739013319700190000, P 28534007200298542000,
  P 10558770436396890000, N 42467434126869000000, P 41921729398708765000, N 6852323642503038000,
  N 36844122645001530000, P 51432856304042520000, N 17251717088799627000, N 43686375723537410000,
  P 73843452632832430000]
/-- `freud/order/Wigner3j.cc`, `case 14`, the values with `m1 = -7`. -/
noncomputable def row14_7 : List Int := [
  N 77126970851994440000, P 15743476999491460000, P 45031522427856160000, N 46041613646013335000,
  P 959796934457610700, P 40487185482261200000, N 42467434126869000000, P 7669549544816055000,
  P 32084655560415364000, N 44256434681176210000, P 20169009076232928000, P 20169009076232928000,
  N 44256434681176210000, P 32084655560415364000, P 7669549544816055000, N 42467434126869000000,
  P 40487185482261200000, P 959796934457610700, N 46041613646013335000, P 45031522427856160000,
  P 15743476999491460000, N 77126970851994440000]
/-- `freud/order/Wigner3j.cc`, `case 14`, the values with `m1 = -6`. -/
noncomputable def row14_8 : List Int := [
  P 73843452632832430000, P 15743476999491460000, N 55537766549493016000, P 18279716826986547000,
  P 34479901083459210000, N 45425881918605260000, P 10558770436396890000, P 32084655560415364000,
  N 43541284978693740000, P 16033240837219163000, P 24839890888786006000, N 43791771234309180000,
  P 24839890888786006000, P 16033240837219163000, N 43541284978693740000, P 32084655560415364000,
  P 10558770436396890000, N 45425881918605260000, P 34479901083459210000, P 18279716826986547000,
  N 55537766549493016000, P 15743476999491460000, P 73843452632832430000]
/-- `freud/order/Wigner3j.cc`, `case 14`, the values with `m1 = -5`. -/
noncomputable def row14_9 : List Int := [
  N 64656960549492650000, N 43686375723537410000, P 45031522427856160000, P 18279716826986547000,
  N 49049627321506420000, P 19490345546795060000, P 28534007200298542000, N 44256434681176210000,
  P 16033240837219163000, P 26223405575170212000, N 43174669426322046000, P 20567603172426233000,
  P 20567603172426233000, N 43174669426322046000, P 26223405575170212000, P 16033240837219163000,
  N 44256434681176210000, P 28534007200298542000, P 19490345546795060000, N 49049627321506420000,
  P 18279716826986547000, P 45031522427856160000, N 43686375723537410000, N 64656960549492650000]
/-- `freud/order/Wigner3j.cc`, `case 14`, the values with `m1 = -4`. -/
noncomputable def row14_10 : List Int := [
  P 51384141814368620000, P 62052246484303490000, N 17251717088799627000, N 46041613646013335000,
  P 34479901083459210000, P 19490345546795060000, N 45739013319700190000, P 20169009076232928000,
  P 24839890888786006000, N 43174669426322046000, P 19166770548092835000, P 22554422426408278000,
  N 42623780180777296000, P 22554422426408278000, P 19166770548092835000, N 43174669426322046000,
  P 24839890888786006000, P 20169009076232928000, N 45739013319700190000, P 19490345546795060000,
  P 34479901083459210000, N 46041613646013335000, N 17251717088799627000, P 62052246484303490000,
  P 51384141814368620000]
/-- `freud/order/Wigner3j.cc`, `case 14`, the values with `m1 = -3`. -/
noncomputable def row14_11 : List Int := [
  N 36517119480472225000, N 67630651719233190000, N 18003182691287905000, P 51432856304042520000,
  P 959796934457610700, N 45425881918605260000, P 28534007200298542000, P 20169009076232928000,
  N 43791771234309180000, P 20567603172426233000, P 22554422426408278000, N 42394607155772040000,
  P 20793274907466103000, P 20793274907466103000, N 42394607155772040000, P 22554422426408278000,
  P 20567603172426233000, N 43791771234309180000, P 20169009076232928000, P 28534007200298542000,
  N 45425881918605260000, P 959796934457610700, P 51432856304042520000, N 18003182691287905000,
  N 67630651719233190000, N 36517119480472225000]
/-- `freud/order/Wigner3j.cc`, `case 14`, the values with `m1 = -2`. -/
noncomputable def row14_12 : List Int := [
  P 22580249176036234000, P 60879763717892300000, P 48603494058383620000, N 31170196317796602000,
  N 36844122645001530000, P 40487185482261200000, P 10558770436396890000, N 44256434681176210000,
  P 24839890888786006000, P 20567603172426233000, N 42623780180777296000, P 20793274907466103000,
  P 21297764732283585000, N 41992281860050810000, P 21297764732283585000, P 20793274907466103000,
  N 42623780180777296000, P 20567603172426233000, P 24839890888786006000, N 44256434681176210000,
  P 10558770436396890000, P 40487185482261200000, N 36844122645001530000, N 31170196317796602000,
  P 48603494058383620000, P 60879763717892300000, P 22580249176036234000]
/-- `freud/order/Wigner3j.cc`, `case 14`, the values with `m1 = -1`. -/
noncomputable def row14_13 : List Int := [
  N 11505193905279716000, N 45565775679734646000, N 64720200850134930000, N 6087976371789230000,
  P 51623340412812635000, N 6852323642503038000, N 42467434126869000000, P 32084655560415364000,
  P 16033240837219163000, N 43174669426322046000, P 22554422426408278000, P 20793274907466103000,
  N 41992281860050810000, P 20895920114693330000, P 20895920114693330000, N 41992281860050810000,
  P 20793274907466103000, P 22554422426408278000, N 43174669426322046000, P 16033240837219163000,
  P 32084655560415364000, N 42467434126869000000, N 6852323642503038000, P 51623340412812635000,
  N 6087976371789230000, N 64720200850134930000, N 45565775679734646000, N 11505193905279716000]
/-- `freud/order/Wigner3j.cc`, `case 14`, the values with `m1 = 0`. -/
noncomputable def row14_14 : List Int := [
  P 4201102820261771000, P 27307168331701510000, P 62549753101675250000, P 43644790410497285000,
  N 34822474487947570000, N 33468785801418770000, P 41921729398708765000, P 7669549544816055000,
  N 43541284978693740000, P 26223405575170212000, P 19166770548092835000, N 42394607155772040000,
  P 21297764732283585000, P 20895920114693330000, N 41791840229386660000, P 20895920114693330000,
  P 21297764732283585000, N 42394607155772040000, P 19166770548092835000, P 26223405575170212000,
  N 43541284978693740000, P 7669549544816055000, P 41921729398708765000, N 33468785801418770000,
  N 34822474487947570000, P 43644790410497285000, P 62549753101675250000, P 27307168331701510000,
  P 4201102820261771000]
/-- `freud/order/Wigner3j.cc`, `case 14`, the values with `m1 = 1`. -/
noncomputable def row14_15 : List Int := [
  N 11505193905279716000, N 45565775679734646000, N 64720200850134930000, N 6087976371789230000,
  P 51623340412812635000, N 6852323642503038000, N 42467434126869000000, P 32084655560415364000,
  P 16033240837219163000, N 43174669426322046000, P 22554422426408278000, P 20793274907466103000,
  N 41992281860050810000, P 20895920114693330000, P 20895920114693330000, N 41992281860050810000,
  P 20793274907466103000, P 22554422426408278000, N 43174669426322046000, P 16033240837219163000,
  P 32084655560415364000, N 42467434126869000000, N 6852323642503038000, P 51623340412812635000,
  N 6087976371789230000, N 64720200850134930000, N 45565775679734646000, N 11505193905279716000]
/-- `freud/order/Wigner3j.cc`, `case 14`, the values with `m1 = 2`. -/
noncomputable def row14_16 : List Int := [
  P 22580249176036234000, P 60879763717892300000, P 48603494058383620000, N 31170196317796602000,
  N 36844122645001530000, P 40487185482261200000, P 10558770436396890000, N 44256434681176210000,
  P 24839890888786006000, P 20567603172426233000, N 42623780180777296000, P 20793274907466103000,
  P 21297764732283585000, N 41992281860050810000, P 21297764732283585000, P 20793274907466103000,
  N 42623780180777296000, P 20567603172426233000, P 24839890888786006000, N 44256434681176210000,
  P 10558770436396890000, P 40487185482261200000, N 36844122645001530000, N 31170196317796602000,
  P 48603494058383620000, P 60879763717892300000, P 22580249176036234000]
/-- `freud/order/Wigner3j.cc`, `case 14`, the values with `m1 = 3`. -/
noncomputable def row14_17 : List Int := [
  N 36517119480472225000, N 67630651719233190000, N 18003182691287905000, P 51432856304042520000,
  P 959796934457610700, N 45425881918605260000, P 28534007200298542000, P 20169009076232928000,
  N 43791771234309180000, P 20567603172426233000, P 22554422426408278000, N 42394607155772040000,
  P 20793274907466103000, P 20793274907466103000, N 42394607155772040000, P 22554422426408278000,
  P 20567603172426233000, N 43791771234309180000, P 20169009076232928000, P 28534007200298542000,
  N 45425881918605260000, P 959796934457610700, P 51432856304042520000, N 18003182691287905000,
  N 67630651719233190000, N 36517119480472225000]
/-- `freud/order/Wigner3j.cc`, `case 14`, the values with `m1 = 4`. -/
noncomputable def row14_18 : List Int := [
  P 51384141814368620000, P 62052246484303490000, N 17251717088799627000, N 46041613646013335000,
  P 34479901083459210000, P 19490345546795060000, N 45739013319700190000, P 20169009076232928000,
  P 24839890888786006000, N 43174669426322046000, P 19166770548092835000, P 22554422426408278000,
  N 42623780180777296000, P 22554422426408278000, P 19166770548092835000, N 43174669426322046000,
  P 24839890888786006000, P 20169009076232928000, N 45739013319700190000, P 19490345546795060000,
  P 34479901083459210000, N 46041613646013335000, N 17251717088799627000, P 62052246484303490000,
  P 51384141814368620000]
/-- `freud/order/Wigner3j.cc`, `case 14`, the values with `m1 = 5`. -/
noncomputable def row14_19 : List Int := [
  N 64656960549492650000, N 43686375723537410000, P 45031522427856160000, P 18279716826986547000,
  N 49049627321506420000, P 19490345546795060000, P 28534007200298542000, N 44256434681176210000,
  P 16033240837219163000, P 26223405575170212000, N 43174669426322046000, P 20567603172426233000,
  P 20567603172426233000, N 43174669426322046000, P 26223405575170212000, P 16033240837219163000,
  N 44256434681176210000, P 28534007200298542000, P 19490345546795060000, N 49049627321506420000,
  P 18279716826986547000, P 45031522427856160000, N 43686375723537410000, N 64656960549492650000]
/-- `freud/order/Wigner3j.cc`, `case 14`, the values with `m1 = 6`. -/
noncomputable def row14_20 : List Int := [
  P 73843452632832430000, P 15743476999491460000, N 55537766549493016000, P 18279716826986547000,
  P 34479901083459210000, N 45425881918605260000, P 10558770436396890000, P 32084655560415364000,
  N 43541284978693740000, P 16033240837219163000, P 24839890888786006000, N 43791771234309180000,
  P 24839890888786006000, P 16033240837219163000, N 43541284978693740000, P 32084655560415364000,
  P 10558770436396890000, N 45425881918605260000, P 34479901083459210000, P 18279716826986547000,
  N 55537766549493016000, P 15743476999491460000, P 73843452632832430000]
/-- `freud/order/Wigner3j.cc`, `case 14`, the values with `m1 = 7`. -/
noncomputable def row14_21 : List Int := [
  N 77126970851994440000, P 15743476999491460000, P 45031522427856160000, N 46041613646013335000,
  P 959796934457610700, P 40487185482261200000, N 42467434126869000000, P 7669549544816055000,
  P 32084655560415364000, N 44256434681176210000, P 20169009076232928000, P 20169009076232928000,
  N 44256434681176210000, P 32084655560415364000, P 7669549544816055000, N 42467434126869000000,
  P 40487185482261200000, P 959796934457610700, N 46041613646013335000, P 45031522427856160000,
  P 15743476999491460000, N 77126970851994440000]
/-- `freud/order/Wigner3j.cc`, `case 14`, the values with `m1 = 8`. -/
noncomputable def row14_22 : List Int := [
  P 73843452632832430000, N 43686375723537410000, N 17251717088799627000, P 51432856304042520000,
  N 36844122645001530000, N 6852323642503038000, P 41921729398708765000, N 42467434126869000000,
  P 10558770436396890000, P 28534007200298542000, N 45739013319700190000, P 28534007200298542000,
  P 10558770436396890000, N 42467434126869000000, P 41921729398708765000, N 6852323642503038000,
  N 36844122645001530000, P 51432856304042520000, N 17251717088799627000, N 43686375723537410000,
  P 73843452632832430000]
/-- `freud/order/Wigner3j.cc`, `case 14`, the values with `m1 = 9`. -/
noncomputable def row14_23 : List Int := [
  N 64656960549492650000, P 62052246484303490000, N 18003182691287905000, N 31170196317796602000,
  P 51623340412812635000, N 33468785801418770000, N 6852323642503038000, P 40487185482261200000,
  N 45425881918605260000, P 19490345546795060000, P 19490345546795060000, N 45425881918605260000,
  P 40487185482261200000, N 6852323642503038000, N 33468785801418770000, P 51623340412812635000,
  N 31170196317796602000, N 18003182691287905000, P 62052246484303490000, N 64656960549492650000]
/-- `freud/order/Wigner3j.cc`, `case 14`, the values with `m1 = 10`. -/
noncomputable def row14_24 : List Int := [
  P 51384141814368620000, N 67630651719233190000, P 48603494058383620000, N 6087976371789230000,
  N 34822474487947570000, P 51623340412812635000, N 36844122645001530000, P 959796934457610700,
  P 34479901083459210000, N 49049627321506420000, P 34479901083459210000, P 959796934457610700,
  N 36844122645001530000, P 51623340412812635000, N 34822474487947570000, N 6087976371789230000,
  P 48603494058383620000, N 67630651719233190000, P 51384141814368620000]
/-- `freud/order/Wigner3j.cc`, `case 14`, the values with `m1 = 11`. -/
noncomputable def row14_25 : List Int := [
  N 36517119480472225000, P 60879763717892300000, N 64720200850134930000, P 43644790410497285000,
  N 6087976371789230000, N 31170196317796602000, P 51432856304042520000, N 46041613646013335000,
  P 18279716826986547000, P 18279716826986547000, N 46041613646013335000, P 51432856304042520000,
  N 31170196317796602000, N 6087976371789230000, P 43644790410497285000, N 64720200850134930000,
  P 60879763717892300000, N 36517119480472225000]
/-- `freud/order/Wigner3j.cc`, `case 14`, the values with `m1 = 12`. -/
noncomputable def row14_26 : List Int := [
  P 22580249176036234000, N 45565775679734646000, P 62549753101675250000, N 64720200850134930000,
  P 48603494058383620000, N 18003182691287905000, N 17251717088799627000, P 45031522427856160000,
  N 55537766549493016000, P 45031522427856160000, N 17251717088799627000, N 18003182691287905000,
  P 48603494058383620000, N 64720200850134930000, P 62549753101675250000, N 45565775679734646000,
  P 22580249176036234000]
/-- `freud/order/Wigner3j.cc`, `case 14`, the values with `m1 = 13`. -/
noncomputable def row14_27 : List Int := [
  N 11505193905279716000, P 27307168331701510000, N 45565775679734646000, P 60879763717892300000,
  N 67630651719233190000, P 62052246484303490000, N 43686375723537410000, P 15743476999491460000,
  P 15743476999491460000, N 43686375723537410000, P 62052246484303490000, N 67630651719233190000,
  P 60879763717892300000, N 45565775679734646000, P 27307168331701510000, N 11505193905279716000]
/-- `freud/order/Wigner3j.cc`, `case 14`, the values with `m1 = 14`. -/
noncomputable def row14_28 : List Int := [
  P 4201102820261771000, N 11505193905279716000, P 22580249176036234000, N 36517119480472225000,
  P 51384141814368620000, N 64656960549492650000, P 73843452632832430000, N 77126970851994440000,
  P 73843452632832430000, N 64656960549492650000, P 51384141814368620000, N 36517119480472225000,
  P 22580249176036234000, N 11505193905279716000, P 4201102820261771000]
/-- `case 14` of `getWigner3j`, times `10 ^ 21`; the rows above are its parts with `m1 = -14, ..., 14`. -/
noncomputable def table14 : List (List Int) := [
  row14_0, row14_1, row14_2, row14_3, row14_4, row14_5,
  row14_6, row14_7, row14_8, row14_9, row14_10, row14_11,
  row14_12, row14_13, row14_14, row14_15, row14_16, row14_17,
  row14_18, row14_19, row14_20, row14_21, row14_22, row14_23,
  row14_24, row14_25, row14_26, row14_27, row14_28]

/-- `freud/order/Wigner3j.cc`, `case 15`, the values with `m1 = -15`. -/
noncomputable def row15_0 : List Int := [
  P 3126982300004299600, N 8844441555933390000, P 17916158595661770000, N 29902891420361847000,
  P 43447893940342240000, N 56520812186395290000, P 66876326860060720000, N 72602297806929780000,
  P 72602297806929780000, N 66876326860060720000, P 56520812186395290000, N 43447893940342240000,
  P 29902891420361847000, N 17916158595661770000, P 8844441555933390000, N 3126982300004299600]
/-- `freud/order/Wigner3j.cc`, `case 15`, the values with `m1 = -14`. -/
noncomputable def row15_1 : List Int := [
  N 8844441555933390000, P 21888876100030097000, N 38165266333821155000, P 53534763307268154000,
  N 63040830342033980000, P 62615079390476130000, N 50553751276911356000, P 28260406093197646000,
  P 0, N 28260406093197646000, P 50553751276911356000, N 62615079390476130000,
  P 63040830342033980000, N 53534763307268154000, P 38165266333821155000, N 21888876100030097000,
  P 8844441555933390000]
/-- `freud/order/Wigner3j.cc`, `case 15`, the values with `m1 = -13`. -/
noncomputable def row15_2 : List Int := [
  P 17916158595661770000, N 38165266333821155000, P 55746546520766306000, N 62515473213180890000,
  P 53571671111243540000, N 29765974722382380000, N 2237680382813104000, P 32264526739761270000,
  N 50335375520473270000, P 50335375520473270000, N 32264526739761270000, P 2237680382813104000,
  P 29765974722382380000, N 53571671111243540000, P 62515473213180890000, N 55746546520766306000,
  P 38165266333821155000, N 17916158595661770000]
/-- `freud/order/Wigner3j.cc`, `case 15`, the values with `m1 = -12`. -/
noncomputable def row15_3 : List Int := [
  N 29902891420361847000, P 53534763307268154000, N 62515473213180890000, P 49923889824206580000,
  N 19288675826891737000, N 16964168332763287000, P 43463055295425730000, N 49050648157272920000,
  P 31834886704915785000, P 0, N 31834886704915785000, P 49050648157272920000,
  N 43463055295425730000, P 16964168332763287000, P 19288675826891737000, N 49923889824206580000,
  P 62515473213180890000, N 53534763307268154000, P 29902891420361847000]
/-- `freud/order/Wigner3j.cc`, `case 15`, the values with `m1 = -11`. -/
noncomputable def row15_4 : List Int := [
  P 43447893940342240000, N 63040830342033980000, P 53571671111243540000, N 19288675826891737000,
  N 21170029594281980000, P 46345367200047830000, N 43983421039385705000, P 17060985511609412000,
  P 18587569265458983000, N 43104640366328430000, P 43104640366328430000, N 18587569265458983000,
  N 17060985511609412000, P 43983421039385705000, N 46345367200047830000, P 21170029594281980000,
  P 19288675826891737000, N 53571671111243540000, P 63040830342033980000, N 43447893940342240000]
/-- `freud/order/Wigner3j.cc`, `case 15`, the values with `m1 = -10`. -/
noncomputable def row15_5 : List Int := [
  N 56520812186395290000, P 62615079390476130000, N 29765974722382380000, N 16964168332763287000,
  P 46345367200047830000, N 41800924309252876000, P 9729262813810318000, P 27110512350235370000,
  N 44913492862404680000, P 33134800625239810000, P 0, N 33134800625239810000,
  P 44913492862404680000, N 27110512350235370000, N 9729262813810318000, P 41800924309252876000,
  N 46345367200047830000, P 16964168332763287000, P 29765974722382380000, N 62615079390476130000,
  P 56520812186395290000]
/-- `freud/order/Wigner3j.cc`, `case 15`, the values with `m1 = -9`. -/
noncomputable def row15_6 : List Int := [
  P 66876326860060720000, N 50553751276911356000, N 2237680382813104000, P 43463055295425730000,
  N 43983421039385705000, P 9729262813810318000, P 29494272130845153000, N 44445687092755430000,
  P 26070690762106222000, P 10750348892621761000, N 39205624819203550000, P 39205624819203550000,
  N 10750348892621761000, N 26070690762106222000, P 44445687092755430000, N 29494272130845153000,
  N 9729262813810318000, P 43983421039385705000, N 43463055295425730000, P 2237680382813104000,
  P 50553751276911356000, N 66876326860060720000]
/-- `freud/order/Wigner3j.cc`, `case 15`, the values with `m1 = -8`. -/
noncomputable def row15_7 : List Int := [
  N 72602297806929780000, P 28260406093197646000, P 32264526739761270000, N 49050648157272920000,
  P 17060985511609412000, P 27110512350235370000, N 44445687092755430000, P 23628484643940535000,
  P 15483693425092187000, N 40990364954344646000, P 33653915268038584000, P 0,
  N 33653915268038584000, P 40990364954344646000, N 15483693425092187000, N 23628484643940535000,
  P 44445687092755430000, N 27110512350235370000, N 17060985511609412000, P 49050648157272920000,
  N 32264526739761270000, N 28260406093197646000, P 72602297806929780000]
/-- `freud/order/Wigner3j.cc`, `case 15`, the values with `m1 = -7`. -/
noncomputable def row15_8 : List Int := [
  P 72602297806929780000, P 0, N 50335375520473270000, P 31834886704915785000,
  P 18587569265458983000, N 44913492862404680000, P 26070690762106222000, P 15483693425092187000,
  N 41312108685344160000, P 30556878922487145000, P 5838768515590004000, N 36799170213871860000,
  P 36799170213871860000, N 5838768515590004000, N 30556878922487145000, P 41312108685344160000,
  N 15483693425092187000, N 26070690762106222000, P 44913492862404680000, N 18587569265458983000,
  N 31834886704915785000, P 50335375520473270000, P 0, N 72602297806929780000]
/-- `freud/order/Wigner3j.cc`, `case 15`, the values with `m1 = -6`. -/
noncomputable def row15_9 : List Int := [
  N 66876326860060720000, N 28260406093197646000, P 50335375520473270000, P 0,
  N 43104640366328430000, P 33134800625239810000, P 10750348892621761000, N 40990364954344646000,
  P 30556878922487145000, P 7670092216332385000, N 37870656921702110000, P 33850313272865400000,
  P 0, N 33850313272865400000, P 37870656921702110000, N 7670092216332385000,
  N 30556878922487145000, P 40990364954344646000, N 10750348892621761000, N 33134800625239810000,
  P 43104640366328430000, P 0, N 50335375520473270000, P 28260406093197646000,
  P 66876326860060720000]
/-- `freud/order/Wigner3j.cc`, `case 15`, the values with `m1 = -5`. -/
noncomputable def row15_10 : List Int := [
  P 56520812186395290000, P 50553751276911356000, N 32264526739761270000, N 31834886704915785000,
  P 43104640366328430000, P 0, N 39205624819203550000, P 33653915268038584000,
  P 5838768515590004000, N 37870656921702110000, P 32815342987401440000, P 2725442798439903000,
  N 35271218914294425000, P 35271218914294425000, N 2725442798439903000, N 32815342987401440000,
  P 37870656921702110000, N 5838768515590004000, N 33653915268038584000, P 39205624819203550000,
  P 0, N 43104640366328430000, P 31834886704915785000, P 32264526739761270000,
  N 50553751276911356000, N 56520812186395290000]
/-- `freud/order/Wigner3j.cc`, `case 15`, the values with `m1 = -4`. -/
noncomputable def row15_11 : List Int := [
  N 43447893940342240000, N 62615079390476130000, P 2237680382813104000, P 49050648157272920000,
  N 18587569265458983000, N 33134800625239810000, P 39205624819203550000, P 0,
  N 36799170213871860000, P 33850313272865400000, P 2725442798439903000, N 35661975150163980000,
  P 33911213435935220000, P 0, N 33911213435935220000, P 35661975150163980000,
  N 2725442798439903000, N 33850313272865400000, P 36799170213871860000, P 0,
  N 39205624819203550000, P 33134800625239810000, P 18587569265458983000, N 49050648157272920000,
  N 2237680382813104000, P 62615079390476130000, P 43447893940342240000]
/-- `freud/order/Wigner3j.cc`, `case 15`, the values with `m1 = -3`. -/
noncomputable def row15_12 : List Int := [
  P 29902891420361847000, P 63040830342033980000, P 29765974722382380000, N 43463055295425730000,
  N 17060985511609412000, P 44913492862404680000, N 10750348892621761000, N 33653915268038584000,
  P 36799170213871860000, P 0, N 35271218914294425000, P 33911213435935220000,
  P 869804271955218900, N 34354516086797314000, P 34354516086797314000, N 869804271955218900,
  N 33911213435935220000, P 35271218914294425000, P 0, N 36799170213871860000,
  P 33653915268038584000, P 10750348892621761000, N 44913492862404680000, P 17060985511609412000,
  P 43463055295425730000, N 29765974722382380000, N 63040830342033980000, N 29902891420361847000]
/-- `freud/order/Wigner3j.cc`, `case 15`, the values with `m1 = -2`. -/
noncomputable def row15_13 : List Int := [
  N 17916158595661770000, N 53534763307268154000, N 53571671111243540000, P 16964168332763287000,
  P 43983421039385705000, N 27110512350235370000, N 26070690762106222000, P 40990364954344646000,
  N 5838768515590004000, N 33850313272865400000, P 35271218914294425000, P 0,
  N 34354516086797314000, P 33922366606253536000, P 0, N 33922366606253536000,
  P 34354516086797314000, P 0, N 35271218914294425000, P 33850313272865400000,
  P 5838768515590004000, N 40990364954344646000, P 26070690762106222000, P 27110512350235370000,
  N 43983421039385705000, N 16964168332763287000, P 53571671111243540000, P 53534763307268154000,
  P 17916158595661770000]
/-- `freud/order/Wigner3j.cc`, `case 15`, the values with `m1 = -1`. -/
noncomputable def row15_14 : List Int := [
  P 8844441555933390000, P 38165266333821155000, P 62515473213180890000, P 19288675826891737000,
  N 46345367200047830000, N 9729262813810318000, P 44445687092755430000, N 15483693425092187000,
  N 30556878922487145000, P 37870656921702110000, N 2725442798439903000, N 33911213435935220000,
  P 34354516086797314000, P 0, N 33922366606253536000, P 33922366606253536000,
  P 0, N 34354516086797314000, P 33911213435935220000, P 2725442798439903000,
  N 37870656921702110000, P 30556878922487145000, P 15483693425092187000, N 44445687092755430000,
  P 9729262813810318000, P 46345367200047830000, N 19288675826891737000, N 62515473213180890000,
  N 38165266333821155000, N 8844441555933390000]
/-- `freud/order/Wigner3j.cc`, `case 15`, the values with `m1 = 0`. -/
noncomputable def row15_15 : List Int := [
  N 3126982300004299600, N 21888876100030097000, N 55746546520766306000, N 49923889824206580000,
  P 21170029594281980000, P 41800924309252876000, N 29494272130845153000, N 23628484643940535000,
  P 41312108685344160000, N 7670092216332385000, N 32815342987401440000, P 35661975150163980000,
  N 869804271955218900, N 33922366606253536000, P 33922366606253536000, P 0,
  N 33922366606253536000, P 33922366606253536000, P 869804271955218900, N 35661975150163980000,
  P 32815342987401440000, P 7670092216332385000, N 41312108685344160000, P 23628484643940535000,
  P 29494272130845153000, N 41800924309252876000, N 21170029594281980000, P 49923889824206580000,
  P 55746546520766306000, P 21888876100030097000, P 3126982300004299600]
/-- `freud/order/Wigner3j.cc`, `case 15`, the values with `m1 = 1`. -/
noncomputable def row15_16 : List Int := [
  P 8844441555933390000, P 38165266333821155000, P 62515473213180890000, P 19288675826891737000,
  N 46345367200047830000, N 9729262813810318000, P 44445687092755430000, N 15483693425092187000,
  N 30556878922487145000, P 37870656921702110000, N 2725442798439903000, N 33911213435935220000,
  P 34354516086797314000, P 0, N 33922366606253536000, P 33922366606253536000,
  P 0, N 34354516086797314000, P 33911213435935220000, P 2725442798439903000,
  N 37870656921702110000, P 30556878922487145000, P 15483693425092187000, N 44445687092755430000,
  P 9729262813810318000, P 46345367200047830000, N 19288675826891737000, N 62515473213180890000,
  N 38165266333821155000, N 8844441555933390000]
/-- `freud/order/Wigner3j.cc`, `case 15`, the values with `m1 = 2`. -/
noncomputable def row15_17 : List Int := [
  N 17916158595661770000, N 53534763307268154000, N 53571671111243540000, P 16964168332763287000,
  P 43983421039385705000, N 27110512350235370000, N 26070690762106222000, P 40990364954344646000,
  N 5838768515590004000, N 33850313272865400000, P 35271218914294425000, P 0,
  N 34354516086797314000, P 33922366606253536000, P 0, N 33922366606253536000,
  P 34354516086797314000, P 0, N 35271218914294425000, P 33850313272865400000,
  P 5838768515590004000, N 40990364954344646000, P 26070690762106222000, P 27110512350235370000,
  N 43983421039385705000, N 16964168332763287000, P 53571671111243540000, P 53534763307268154000,
  P 17916158595661770000]
/-- `freud/order/Wigner3j.cc`, `case 15`, the values with `m1 = 3`. -/
noncomputable def row15_18 : List Int := [
  P 29902891420361847000, P 63040830342033980000, P 29765974722382380000, N 43463055295425730000,
  N 17060985511609412000, P 44913492862404680000, N 10750348892621761000, N 33653915268038584000,
  P 36799170213871860000, P 0, N 35271218914294425000, P 33911213435935220000,
  P 869804271955218900, N 34354516086797314000, P 34354516086797314000, N 869804271955218900,
  N 33911213435935220000, P 35271218914294425000, P 0, N 36799170213871860000,
  P 33653915268038584000, P 10750348892621761000, N 44913492862404680000, P 17060985511609412000,
  P 43463055295425730000, N 29765974722382380000, N 63040830342033980000, N 29902891420361847000]
/-- `freud/order/Wigner3j.cc`, `case 15`, the values with `m1 = 4`. -/
noncomputable def row15_19 : List Int := [
  N 43447893940342240000, N 62615079390476130000, P 2237680382813104000, P 49050648157272920000,
  N 18587569265458983000, N 33134800625239810000, P 39205624819203550000, P 0,
  N 36799170213871860000, P 33850313272865400000, P 2725442798439903000, N 35661975150163980000,
  P 33911213435935220000, P 0, N 33911213435935220000, P 35661975150163980000,
  N 2725442798439903000, N 33850313272865400000, P 36799170213871860000, P 0,
  N 39205624819203550000, P 33134800625239810000, P 18587569265458983000, N 49050648157272920000,
  N 2237680382813104000, P 62615079390476130000, P 43447893940342240000]
/-- `freud/order/Wigner3j.cc`, `case 15`, the values with `m1 = 5`. -/
noncomputable def row15_20 : List Int := [
  P 56520812186395290000, P 50553751276911356000, N 32264526739761270000, N 31834886704915785000,
  P 43104640366328430000, P 0, N 39205624819203550000, P 33653915268038584000,
  P 5838768515590004000, N 37870656921702110000, P 32815342987401440000, P 2725442798439903000,
  N 35271218914294425000, P 35271218914294425000, N 2725442798439903000, N 32815342987401440000,
  P 37870656921702110000, N 5838768515590004000, N 33653915268038584000, P 39205624819203550000,
  P 0, N 43104640366328430000, P 31834886704915785000, P 32264526739761270000,
  N 50553751276911356000, N 56520812186395290000]
/-- `freud/order/Wigner3j.cc`, `case 15`, the values with `m1 = 6`. -/
noncomputable def row15_21 : List Int := [
  N 66876326860060720000, N 28260406093197646000, P 50335375520473270000, P 0,
  N 43104640366328430000, P 33134800625239810000, P 10750348892621761000, N 40990364954344646000,
  P 30556878922487145000, P 7670092216332385000, N 37870656921702110000, P 33850313272865400000,
  P 0, N 33850313272865400000, P 37870656921702110000, N 7670092216332385000,
  N 30556878922487145000, P 40990364954344646000, N 10750348892621761000, N 33134800625239810000,
  P 43104640366328430000, P 0, N 50335375520473270000, P 28260406093197646000,
  P 66876326860060720000]
/-- `freud/order/Wigner3j.cc`, `case 15`, the values with `m1 = 7`. -/
noncomputable def row15_22 : List Int := [
  P 72602297806929780000, P 0, N 50335375520473270000, P 31834886704915785000,
  P 18587569265458983000, N 44913492862404680000, P 26070690762106222000, P 15483693425092187000,
  N 41312108685344160000, P 30556878922487145000, P 5838768515590004000, N 36799170213871860000,
  P 36799170213871860000, N 5838768515590004000, N 30556878922487145000, P 41312108685344160000,
  N 15483693425092187000, N 26070690762106222000, P 44913492862404680000, N 18587569265458983000,
  N 31834886704915785000, P 50335375520473270000, P 0, N 72602297806929780000]
/-- `freud/order/Wigner3j.cc`, `case 15`, the values with `m1 = 8`. -/
noncomputable def row15_23 : List Int := [
  N 72602297806929780000, P 28260406093197646000, P 32264526739761270000, N 49050648157272920000,
  P 17060985511609412000, P 27110512350235370000, N 44445687092755430000, P 23628484643940535000,
  P 15483693425092187000, N 40990364954344646000, P 33653915268038584000, P 0,
  N 33653915268038584000, P 40990364954344646000, N 15483693425092187000, N 23628484643940535000,
  P 44445687092755430000, N 27110512350235370000, N 17060985511609412000, P 49050648157272920000,
  N 32264526739761270000, N 28260406093197646000, P 72602297806929780000]
/-- `freud/order/Wigner3j.cc`, `case 15`, the values with `m1 = 9`. -/
noncomputable def row15_24 : List Int := [
  P 66876326860060720000, N 50553751276911356000, N 2237680382813104000, P 43463055295425730000,
  N 43983421039385705000, P 9729262813810318000, P 29494272130845153000, N 44445687092755430000,
  P 26070690762106222000, P 10750348892621761000, N 39205624819203550000, P 39205624819203550000,
  N 10750348892621761000, N 26070690762106222000, P 44445687092755430000, N 29494272130845153000,
  N 9729262813810318000, P 43983421039385705000, N 43463055295425730000, P 2237680382813104000,
  P 50553751276911356000, N 66876326860060720000]
/-- `freud/order/Wigner3j.cc`, `case 15`, the values with `m1 = 10`. -/
noncomputable def row15_25 : List Int := [
  N 56520812186395290000, P 62615079390476130000, N 29765974722382380000, N 16964168332763287000,
  P 46345367200047830000, N 41800924309252876000, P 9729262813810318000, P 27110512350235370000,
  N 44913492862404680000, P 33134800625239810000, P 0, N 33134800625239810000,
  P 44913492862404680000, N 27110512350235370000, N 9729262813810318000, P 41800924309252876000,
  N 46345367200047830000, P 16964168332763287000, P 29765974722382380000, N 62615079390476130000,
  P 56520812186395290000]
/-- `freud/order/Wigner3j.cc`, `case 15`, the values with `m1 = 11`. -/
noncomputable def row15_26 : List Int := [
  P 43447893940342240000, N 63040830342033980000, P 53571671111243540000, N 19288675826891737000,
  N 21170029594281980000, P 46345367200047830000, N 43983421039385705000, P 17060985511609412000,
  P 18587569265458983000, N 43104640366328430000, P 43104640366328430000, N 18587569265458983000,
  N 17060985511609412000, P 43983421039385705000, N 46345367200047830000, P 21170029594281980000,
  P 19288675826891737000, N 53571671111243540000, P 63040830342033980000, N 43447893940342240000]
/-- `freud/order/Wigner3j.cc`, `case 15`, the values with `m1 = 12`. -/
noncomputable def row15_27 : List Int := [
  N 29902891420361847000, P 53534763307268154000, N 62515473213180890000, P 49923889824206580000,
  N 19288675826891737000, N 16964168332763287000, P 43463055295425730000, N 49050648157272920000,
  P 31834886704915785000, P 0, N 31834886704915785000, P 49050648157272920000,
  N 43463055295425730000, P 16964168332763287000, P 19288675826891737000, N 49923889824206580000,
  P 62515473213180890000, N 53534763307268154000, P 29902891420361847000]
/-- `freud/order/Wigner3j.cc`, `case 15`, the values with `m1 = 13`. -/
noncomputable def row15_28 : List Int := [
  P 17916158595661770000, N 38165266333821155000, P 55746546520766306000, N 62515473213180890000,
  P 53571671111243540000, N 29765974722382380000, N 2237680382813104000, P 32264526739761270000,
  N 50335375520473270000, P 50335375520473270000, N 32264526739761270000, P 2237680382813104000,
  P 29765974722382380000, N 53571671111243540000, P 62515473213180890000, N 55746546520766306000,
  P 38165266333821155000, N 17916158595661770000]
/-- `freud/order/Wigner3j.cc`, `case 15`, the values with `m1 = 14`. -/
noncomputable def row15_29 : List Int := [
  N 8844441555933390000, P 21888876100030097000, N 38165266333821155000, P 53534763307268154000,
  N 63040830342033980000, P 62615079390476130000, N 50553751276911356000, P 28260406093197646000,
  P 0, N 28260406093197646000, P 50553751276911356000, N 62615079390476130000,
  P 63040830342033980000, N 53534763307268154000, P 38165266333821155000, N 21888876100030097000,
  P 8844441555933390000]
/-- `freud/order/Wigner3j.cc`, `case 15`, the values with `m1 = 15`. -/
noncomputable def row15_30 : List Int := [
  P 3126982300004299600, N 8844441555933390000, P 17916158595661770000, N 29902891420361847000,
  P 43447893940342240000, N 56520812186395290000, P 66876326860060720000, N 72602297806929780000,
  P 72602297806929780000, N 66876326860060720000, P 56520812186395290000, N 43447893940342240000,
  P 29902891420361847000, N 17916158595661770000, P 8844441555933390000, N 3126982300004299600]
/-- `case 15` of `getWigner3j`, times `10 ^ 21`; the rows above are its parts with `m1 = -15, ..., 15`. -/
noncomputable def table15 : List (List Int) := [
  row15_0, row15_1, row15_2, row15_3, row15_4, row15_5,
  row15_6, row15_7, row15_8, row15_9, row15_10, row15_11,
  row15_12, row15_13, row15_14, row15_15, row15_16, row15_17,
  row15_18, row15_19, row15_20, row15_21, row15_22, row15_23,
  row15_24, row15_25, row15_26, row15_27, row15_28, row15_29,
  row15_30]

/-- `freud/order/Wigner3j.cc`, `case 16`, the values with `m1 = -16`. -/
noncomputable def row16_0 : List Int := [
  P 2332434819536523000, N 6800157615289823000, P 14190739125793207000, N 24396334530020560000,
  P 36524330106695854000, N 49002530970728445000, P 59891982297556990000, N 67328185687560190000,
  P 69969503035371570000, N 67328185687560190000, P 59891982297556990000, N 49002530970728445000,
  P 36524330106695854000, N 24396334530020560000, P 14190739125793207000, N 6800157615289823000,
  P 2332434819536523000]
/-- `freud/order/Wigner3j.cc`, `case 16`, the values with `m1 = -15`. -/
noncomputable def row16_1 : List Int := [
  N 6800157615289823000, P 17493261146523920000, N 31754953420418850000, P 46539470759818010000,
  N 57661121915810570000, P 61116893992414975000, N 54447256634142720000, P 37670314130247930000,
  N 13465637137512037000, N 13465637137512037000, P 37670314130247930000, N 54447256634142720000,
  P 61116893992414975000, N 57661121915810570000, P 46539470759818010000, N 31754953420418850000,
  P 17493261146523920000, N 6800157615289823000]
/-- `freud/order/Wigner3j.cc`, `case 16`, the values with `m1 = -14`. -/
noncomputable def row16_2 : List Int := [
  P 14190739125793207000, N 31754953420418850000, P 49018751126711120000, N 58860443943874480000,
  P 55775788586250624000, N 38509576553946990000, P 10976918204446077000, P 18862197257764036000,
  N 41722360238641110000, P 50267574901325020000, N 41722360238641110000, P 18862197257764036000,
  P 10976918204446077000, N 38509576553946990000, P 55775788586250624000, N 58860443943874480000,
  P 49018751126711120000, N 31754953420418850000, P 14190739125793207000]
/-- `freud/order/Wigner3j.cc`, `case 16`, the values with `m1 = -13`. -/
noncomputable def row16_3 : List Int := [
  N 24396334530020560000, P 46539470759818010000, N 58860443943874480000, P 53307421601342790000,
  N 29782683557593614000, N 3360008984440030600, P 33008845201087066000, N 47172204086926656000,
  P 40297521179665960000, N 15722270889929855000, N 15722270889929855000, P 40297521179665960000,
  N 47172204086926656000, P 33008845201087066000, N 3360008984440030600, N 29782683557593614000,
  P 53307421601342790000, N 58860443943874480000, P 46539470759818010000, N 24396334530020560000]
/-- `freud/order/Wigner3j.cc`, `case 16`, the values with `m1 = -12`. -/
noncomputable def row16_4 : List Int := [
  P 36524330106695854000, N 57661121915810570000, P 55775788586250624000, N 29782683557593614000,
  N 7701704963063591000, P 37845085543991980000, N 46014565787096500000, P 29276287655795540000,
  P 2545176599682631400, N 32280261164171140000, P 44277204552041810000, N 32280261164171140000,
  P 2545176599682631400, P 29276287655795540000, N 46014565787096500000, P 37845085543991980000,
  N 7701704963063591000, N 29782683557593614000, P 55775788586250624000, N 57661121915810570000,
  P 36524330106695854000]
/-- `freud/order/Wigner3j.cc`, `case 16`, the values with `m1 = -11`. -/
noncomputable def row16_5 : List Int := [
  N 49002530970728445000, P 61116893992414975000, N 38509576553946990000, N 3360008984440030600,
  P 37845085543991980000, N 45049201322605580000, P 23191638763602442000, P 12110099474284711000,
  N 38460347628404960000, P 40147105291726780000, N 16838621425166362000, N 16838621425166362000,
  P 40147105291726780000, N 38460347628404960000, P 12110099474284711000, P 23191638763602442000,
  N 45049201322605580000, P 37845085543991980000, N 3360008984440030600, N 38509576553946990000,
  P 61116893992414975000, N 49002530970728445000]
/-- `freud/order/Wigner3j.cc`, `case 16`, the values with `m1 = -10`. -/
noncomputable def row16_6 : List Int := [
  P 59891982297556990000, N 54447256634142720000, P 10976918204446077000, P 33008845201087066000,
  N 46014565787096500000, P 23191638763602442000, P 14998239101895496000, N 40215641596830180000,
  P 35827263521614620000, N 6450641267776993000, N 26835187064573413000, P 41161074594851105000,
  N 26835187064573413000, N 6450641267776993000, P 35827263521614620000, N 40215641596830180000,
  P 14998239101895496000, P 23191638763602442000, N 46014565787096500000, P 33008845201087066000,
  P 10976918204446077000, N 54447256634142720000, P 59891982297556990000]
/-- `freud/order/Wigner3j.cc`, `case 16`, the values with `m1 = -9`. -/
noncomputable def row16_7 : List Int := [
  N 67328185687560190000, P 37670314130247930000, P 18862197257764036000, N 47172204086926656000,
  P 29276287655795540000, P 12110099474284711000, N 40215641596830180000, P 34165370323767190000,
  N 1480049136142056400, N 31232118321023662000, P 39325737805347770000, N 17490093546632834000,
  N 17490093546632834000, P 39325737805347770000, N 31232118321023662000, N 1480049136142056400,
  P 34165370323767190000, N 40215641596830180000, P 12110099474284711000, P 29276287655795540000,
  N 47172204086926656000, P 18862197257764036000, P 37670314130247930000, N 67328185687560190000]
/-- `freud/order/Wigner3j.cc`, `case 16`, the values with `m1 = -8`. -/
noncomputable def row16_8 : List Int := [
  P 69969503035371570000, N 13465637137512037000, N 41722360238641110000, P 40297521179665960000,
  P 2545176599682631400, N 38460347628404960000, P 35827263521614620000, N 1480049136142056400,
  N 32439351260796855000, P 37826554418129140000, N 11859937700410775000, N 23316536741326760000,
  P 39265162628475590000, N 23316536741326760000, N 11859937700410775000, P 37826554418129140000,
  N 32439351260796855000, N 1480049136142056400, P 35827263521614620000, N 38460347628404960000,
  P 2545176599682631400, P 40297521179665960000, N 41722360238641110000, N 13465637137512037000,
  P 69969503035371570000]
/-- `freud/order/Wigner3j.cc`, `case 16`, the values with `m1 = -7`. -/
noncomputable def row16_9 : List Int := [
  N 67328185687560190000, N 13465637137512037000, P 50267574901325020000, N 15722270889929855000,
  N 32280261164171140000, P 40147105291726780000, N 6450641267776993000, N 31232118321023662000,
  P 37826554418129140000, N 10008367977771717000, N 25773356818701038000, P 38428312112213620000,
  N 17894419176959823000, N 17894419176959823000, P 38428312112213620000, N 25773356818701038000,
  N 10008367977771717000, P 37826554418129140000, N 31232118321023662000, N 6450641267776993000,
  P 40147105291726780000, N 32280261164171140000, N 15722270889929855000, P 50267574901325020000,
  N 13465637137512037000, N 67328185687560190000]
/-- `freud/order/Wigner3j.cc`, `case 16`, the values with `m1 = -6`. -/
noncomputable def row16_10 : List Int := [
  P 59891982297556990000, P 37670314130247930000, N 41722360238641110000, N 15722270889929855000,
  P 44277204552041810000, N 16838621425166362000, N 26835187064573413000, P 39325737805347770000,
  N 11859937700410775000, N 25773356818701038000, P 38036330002019130000, N 15198869152750111000,
  N 20980260102638197000, P 38051375292975390000, N 20980260102638197000, N 15198869152750111000,
  P 38036330002019130000, N 25773356818701038000, N 11859937700410775000, P 39325737805347770000,
  N 26835187064573413000, N 16838621425166362000, P 44277204552041810000, N 15722270889929855000,
  N 41722360238641110000, P 37670314130247930000, P 59891982297556990000]
/-- `freud/order/Wigner3j.cc`, `case 16`, the values with `m1 = -5`. -/
noncomputable def row16_11 : List Int := [
  N 49002530970728445000, N 54447256634142720000, P 18862197257764036000, P 40297521179665960000,
  N 32280261164171140000, N 16838621425166362000, P 41161074594851105000, N 17490093546632834000,
  N 23316536741326760000, P 38428312112213620000, N 15198869152750111000, N 21922898204612937000,
  P 37670497912531554000, N 18147099778853510000, N 18147099778853510000, P 37670497912531554000,
  N 21922898204612937000, N 15198869152750111000, P 38428312112213620000, N 23316536741326760000,
  N 17490093546632834000, P 41161074594851105000, N 16838621425166362000, N 32280261164171140000,
  P 40297521179665960000, P 18862197257764036000, N 54447256634142720000, N 49002530970728445000]
/-- `freud/order/Wigner3j.cc`, `case 16`, the values with `m1 = -4`. -/
noncomputable def row16_12 : List Int := [
  P 36524330106695854000, P 61116893992414975000, P 10976918204446077000, N 47172204086926656000,
  P 2545176599682631400, P 40147105291726780000, N 26835187064573413000, N 17490093546632834000,
  P 39265162628475590000, N 17894419176959823000, N 20980260102638197000, P 37670497912531554000,
  N 17213922456605385000, N 19479737758967205000, P 37288745330013265000, N 19479737758967205000,
  N 17213922456605385000, P 37670497912531554000, N 20980260102638197000, N 17894419176959823000,
  P 39265162628475590000, N 17490093546632834000, N 26835187064573413000, P 40147105291726780000,
  P 2545176599682631400, N 47172204086926656000, P 10976918204446077000, P 61116893992414975000,
  P 36524330106695854000]
/-- `freud/order/Wigner3j.cc`, `case 16`, the values with `m1 = -3`. -/
noncomputable def row16_13 : List Int := [
  N 24396334530020560000, N 57661121915810570000, N 38509576553946990000, P 33008845201087066000,
  P 29276287655795540000, N 38460347628404960000, N 6450641267776993000, P 39325737805347770000,
  N 23316536741326760000, N 17894419176959823000, P 38051375292975390000, N 18147099778853510000,
  N 19479737758967205000, P 37138122065952890000, N 18295848986670910000, N 18295848986670910000,
  P 37138122065952890000, N 19479737758967205000, N 18147099778853510000, P 38051375292975390000,
  N 17894419176959823000, N 23316536741326760000, P 39325737805347770000, N 6450641267776993000,
  N 38460347628404960000, P 29276287655795540000, P 33008845201087066000, N 38509576553946990000,
  N 57661121915810570000, N 24396334530020560000]
/-- `freud/order/Wigner3j.cc`, `case 16`, the values with `m1 = -2`. -/
noncomputable def row16_14 : List Int := [
  P 14190739125793207000, P 46539470759818010000, P 55775788586250624000, N 3360008984440030600,
  N 46014565787096500000, P 12110099474284711000, P 35827263521614620000, N 31232118321023662000,
  N 11859937700410775000, P 38428312112213620000, N 20980260102638197000, N 18147099778853510000,
  P 37288745330013265000, N 18295848986670910000, N 18637079571558777000, P 36865796919851890000,
  N 18637079571558777000, N 18295848986670910000, P 37288745330013265000, N 18147099778853510000,
  N 20980260102638197000, P 38428312112213620000, N 11859937700410775000, N 31232118321023662000,
  P 35827263521614620000, P 12110099474284711000, N 46014565787096500000, N 3360008984440030600,
  P 55775788586250624000, P 46539470759818010000, P 14190739125793207000]
/-- `freud/order/Wigner3j.cc`, `case 16`, the values with `m1 = -1`. -/
noncomputable def row16_15 : List Int := [
  N 6800157615289823000, N 31754953420418850000, N 58860443943874480000, N 29782683557593614000,
  P 37845085543991980000, P 23191638763602442000, N 40215641596830180000, N 1480049136142056400,
  P 37826554418129140000, N 25773356818701038000, N 15198869152750111000, P 37670497912531554000,
  N 19479737758967205000, N 18295848986670910000, P 36865796919851890000, N 18365005417229453000,
  N 18365005417229453000, P 36865796919851890000, N 18295848986670910000, N 19479737758967205000,
  P 37670497912531554000, N 15198869152750111000, N 25773356818701038000, P 37826554418129140000,
  N 1480049136142056400, N 40215641596830180000, P 23191638763602442000, P 37845085543991980000,
  N 29782683557593614000, N 58860443943874480000, N 31754953420418850000, N 6800157615289823000]
/-- `freud/order/Wigner3j.cc`, `case 16`, the values with `m1 = 0`. -/
noncomputable def row16_16 : List Int := [
  P 2332434819536523000, P 17493261146523920000, P 49018751126711120000, P 53307421601342790000,
  N 7701704963063591000, N 45049201322605580000, P 14998239101895496000, P 34165370323767190000,
  N 32439351260796855000, N 10008367977771717000, P 38036330002019130000, N 21922898204612937000,
  N 17213922456605385000, P 37138122065952890000, N 18637079571558777000, N 18365005417229453000,
  P 36730010834458905000, N 18365005417229453000, N 18637079571558777000, P 37138122065952890000,
  N 17213922456605385000, N 21922898204612937000, P 38036330002019130000, N 10008367977771717000,
  N 32439351260796855000, P 34165370323767190000, P 14998239101895496000, N 45049201322605580000,
  N 7701704963063591000, P 53307421601342790000, P 49018751126711120000, P 17493261146523920000,
  P 2332434819536523000]
/-- `freud/order/Wigner3j.cc`, `case 16`, the values with `m1 = 1`. -/
noncomputable def row16_17 : List Int := [
  N 6800157615289823000, N 31754953420418850000, N 58860443943874480000, N 29782683557593614000,
  P 37845085543991980000, P 23191638763602442000, N 40215641596830180000, N 1480049136142056400,
  P 37826554418129140000, N 25773356818701038000, N 15198869152750111000, P 37670497912531554000,
  N 19479737758967205000, N 18295848986670910000, P 36865796919851890000, N 18365005417229453000,
  N 18365005417229453000, P 36865796919851890000, N 18295848986670910000, N 19479737758967205000,
  P 37670497912531554000, N 15198869152750111000, N 25773356818701038000, P 37826554418129140000,
  N 1480049136142056400, N 40215641596830180000, P 23191638763602442000, P 37845085543991980000,
  N 29782683557593614000, N 58860443943874480000, N 31754953420418850000, N 6800157615289823000]
/-- `freud/order/Wigner3j.cc`, `case 16`, the values with `m1 = 2`. -/
noncomputable def row16_18 : List Int := [
  P 14190739125793207000, P 46539470759818010000, P 55775788586250624000, N 3360008984440030600,
  N 46014565787096500000, P 12110099474284711000, P 35827263521614620000, N 31232118321023662000,
  N 11859937700410775000, P 38428312112213620000, N 20980260102638197000, N 18147099778853510000,
  P 37288745330013265000, N 18295848986670910000, N 18637079571558777000, P 36865796919851890000,
  N 18637079571558777000, N 18295848986670910000, P 37288745330013265000, N 18147099778853510000,
  N 20980260102638197000, P 38428312112213620000, N 11859937700410775000, N 31232118321023662000,
  P 35827263521614620000, P 12110099474284711000, N 46014565787096500000, N 3360008984440030600,
  P 55775788586250624000, P 46539470759818010000, P 14190739125793207000]
/-- `freud/order/Wigner3j.cc`, `case 16`, the values with `m1 = 3`. -/
noncomputable def row16_19 : List Int := [
  N 24396334530020560000, N 57661121915810570000, N 38509576553946990000, P 33008845201087066000,
  P 29276287655795540000, N 38460347628404960000, N 6450641267776993000, P 39325737805347770000,
  N 23316536741326760000, N 17894419176959823000, P 38051375292975390000, N 18147099778853510000,
  N 19479737758967205000, P 37138122065952890000, N 18295848986670910000, N 18295848986670910000,
  P 37138122065952890000, N 19479737758967205000, N 18147099778853510000, P 38051375292975390000,
  N 17894419176959823000, N 23316536741326760000, P 39325737805347770000, N 6450641267776993000,
  N 38460347628404960000, P 29276287655795540000, P 33008845201087066000, N 38509576553946990000,
  N 57661121915810570000, N 24396334530020560000]
/-- `freud/order/Wigner3j.cc`, `case 16`, the values with `m1 = 4`. -/
noncomputable def row16_20 : List Int := [
  P 36524330106695854000, P 61116893992414975000, P 10976918204446077000, N 47172204086926656000,
  P 2545176599682631400, P 40147105291726780000, N 26835187064573413000, N 17490093546632834000,
  P 39265162628475590000, N 17894419176959823000, N 20980260102638197000, P 37670497912531554000,
  N 17213922456605385000, N 19479737758967205000, P 37288745330013265000, N 19479737758967205000,
  N 17213922456605385000, P 37670497912531554000, N 20980260102638197000, N 17894419176959823000,
  P 39265162628475590000, N 17490093546632834000, N 26835187064573413000, P 40147105291726780000,
  P 2545176599682631400, N 47172204086926656000, P 10976918204446077000, P 61116893992414975000,
  P 36524330106695854000]
/-- `freud/order/Wigner3j.cc`, `case 16`, the values with `m1 = 5`. -/
noncomputable def row16_21 : List Int := [
  N 49002530970728445000, N 54447256634142720000, P 18862197257764036000, P 40297521179665960000,
  N 32280261164171140000, N 16838621425166362000, P 41161074594851105000, N 17490093546632834000,
  N 23316536741326760000, P 38428312112213620000, N 15198869152750111000, N 21922898204612937000,
  P 37670497912531554000, N 18147099778853510000, N 18147099778853510000, P 37670497912531554000,
  N 21922898204612937000, N 15198869152750111000, P 38428312112213620000, N 23316536741326760000,
  N 17490093546632834000, P 41161074594851105000, N 16838621425166362000, N 32280261164171140000,
  P 40297521179665960000, P 18862197257764036000, N 54447256634142720000, N 49002530970728445000]
/-- `freud/order/Wigner3j.cc`, `case 16`, the values with `m1 = 6`. -/
noncomputable def row16_22 : List Int := [
  P 59891982297556990000, P 37670314130247930000, N 41722360238641110000, N 15722270889929855000,
  P 44277204552041810000, N 16838621425166362000, N 26835187064573413000, P 39325737805347770000,
  N 11859937700410775000, N 25773356818701038000, P 38036330002019130000, N 15198869152750111000,
  N 20980260102638197000, P 38051375292975390000, N 20980260102638197000, N 15198869152750111000,
  P 38036330002019130000, N 25773356818701038000, N 11859937700410775000, P 39325737805347770000,
  N 26835187064573413000, N 16838621425166362000, P 44277204552041810000, N 15722270889929855000,
  N 41722360238641110000, P 37670314130247930000, P 59891982297556990000]
/-- `freud/order/Wigner3j.cc`, `case 16`, the values with `m1 = 7`. -/
noncomputable def row16_23 : List Int := [
  N 67328185687560190000, N 13465637137512037000, P 50267574901325020000, N 15722270889929855000,
  N 32280261164171140000, P 40147105291726780000, N 6450641267776993000, N 31232118321023662000,
  P 37826554418129140000, N 10008367977771717000, N 25773356818701038000, P 38428312112213620000,
  N 17894419176959823000, N 17894419176959823000, P 38428312112213620000, N 25773356818701038000,
  N 10008367977771717000, P 37826554418129140000, N 31232118321023662000, N 6450641267776993000,
  P 40147105291726780000, N 32280261164171140000, N 15722270889929855000, P 50267574901325020000,
  N 13465637137512037000, N 67328185687560190000]
/-- `freud/order/Wigner3j.cc`, `case 16`, the values with `m1 = 8`. -/
noncomputable def row16_24 : List Int := [
  P 69969503035371570000, N 13465637137512037000, N 41722360238641110000, P 40297521179665960000,
  P 2545176599682631400, N 38460347628404960000, P 35827263521614620000, N 1480049136142056400,
  N 32439351260796855000, P 37826554418129140000, N 11859937700410775000, N 23316536741326760000,
  P 39265162628475590000, N 23316536741326760000, N 11859937700410775000, P 37826554418129140000,
  N 32439351260796855000, N 1480049136142056400, P 35827263521614620000, N 38460347628404960000,
  P 2545176599682631400, P 40297521179665960000, N 41722360238641110000, N 13465637137512037000,
  P 69969503035371570000]
/-- `freud/order/Wigner3j.cc`, `case 16`, the values with `m1 = 9`. -/
noncomputable def row16_25 : List Int := [
  N 67328185687560190000, P 37670314130247930000, P 18862197257764036000, N 47172204086926656000,
  P 29276287655795540000, P 12110099474284711000, N 40215641596830180000, P 34165370323767190000,
  N 1480049136142056400, N 31232118321023662000, P 39325737805347770000, N 17490093546632834000,
  N 17490093546632834000, P 39325737805347770000, N 31232118321023662000, N 1480049136142056400,
  P 34165370323767190000, N 40215641596830180000, P 12110099474284711000, P 29276287655795540000,
  N 47172204086926656000, P 18862197257764036000, P 37670314130247930000, N 67328185687560190000]
/-- `freud/order/Wigner3j.cc`, `case 16`, the values with `m1 = 10`. -/
noncomputable def row16_26 : List Int := [
  P 59891982297556990000, N 54447256634142720000, P 10976918204446077000, P 33008845201087066000,
  N 46014565787096500000, P 23191638763602442000, P 14998239101895496000, N 40215641596830180000,
  P 35827263521614620000, N 6450641267776993000, N 26835187064573413000, P 41161074594851105000,
  N 26835187064573413000, N 6450641267776993000, P 35827263521614620000, N 40215641596830180000,
  P 14998239101895496000, P 23191638763602442000, N 46014565787096500000, P 33008845201087066000,
  P 10976918204446077000, N 54447256634142720000, P 59891982297556990000]
/-- `freud/order/Wigner3j.cc`, `case 16`, the values with `m1 = 11`. -/
noncomputable def row16_27 : List Int := [
  N 49002530970728445000, P 61116893992414975000, N 38509576553946990000, N 3360008984440030600,
  P 37845085543991980000, N 45049201322605580000, P 23191638763602442000, P 12110099474284711000,
  N 38460347628404960000, P 40147105291726780000, N 16838621425166362000, N 16838621425166362000,
  P 40147105291726780000, N 38460347628404960000, P 12110099474284711000, P 23191638763602442000,
  N 45049201322605580000, P 37845085543991980000, N 3360008984440030600, N 38509576553946990000,
  P 61116893992414975000, N 49002530970728445000]
/-- `freud/order/Wigner3j.cc`, `case 16`, the values with `m1 = 12`. -/
noncomputable def row16_28 : List Int := [
  P 36524330106695854000, N 57661121915810570000, P 55775788586250624000, N 29782683557593614000,
  N 7701704963063591000, P 37845085543991980000, N 46014565787096500000, P 29276287655795540000,
  P 2545176599682631400, N 32280261164171140000, P 44277204552041810000, N 32280261164171140000,
  P 2545176599682631400, P 29276287655795540000, N 46014565787096500000, P 37845085543991980000,
  N 7701704963063591000, N 29782683557593614000, P 55775788586250624000, N 57661121915810570000,
  P 36524330106695854000]
/-- `freud/order/Wigner3j.cc`, `case 16`, the values with `m1 = 13`. -/
noncomputable def row16_29 : List Int := [
  N 24396334530020560000, P 46539470759818010000, N 58860443943874480000, P 53307421601342790000,
  N 29782683557593614000, N 3360008984440030600, P 33008845201087066000, N 47172204086926656000,
  P 40297521179665960000, N 15722270889929855000, N 15722270889929855000, P 40297521179665960000,
  N 47172204086926656000, P 33008845201087066000, N 3360008984440030600, N 29782683557593614000,
  P 53307421601342790000, N 58860443943874480000, P 46539470759818010000, N 24396334530020560000]
/-- `freud/order/Wigner3j.cc`, `case 16`, the values with `m1 = 14`. -/
noncomputable def row16_30 : List Int := [
  P 14190739125793207000, N 31754953420418850000, P 49018751126711120000, N 58860443943874480000,
  P 55775788586250624000, N 38509576553946990000, P 10976918204446077000, P 18862197257764036000,
  N 41722360238641110000, P 50267574901325020000, N 41722360238641110000, P 18862197257764036000,
  P 10976918204446077000, N 38509576553946990000, P 55775788586250624000, N 58860443943874480000,
  P 49018751126711120000, N 31754953420418850000, P 14190739125793207000]
/-- `freud/order/Wigner3j.cc`, `case 16`, the values with `m1 = 15`. -/
noncomputable def row16_31 : List Int := [
  N 6800157615289823000, P 17493261146523920000, N 31754953420418850000, P 46539470759818010000,
  N 57661121915810570000, P 61116893992414975000, N 54447256634142720000, P 37670314130247930000,
  N 13465637137512037000, N 13465637137512037000, P 37670314130247930000, N 54447256634142720000,
  P 61116893992414975000, N 57661121915810570000, P 46539470759818010000, N 31754953420418850000,
  P 17493261146523920000, N 6800157615289823000]
/-- `freud/order/Wigner3j.cc`, `case 16`, the values with `m1 = 16`. -/
noncomputable def row16_32 : List Int := [
  P 2332434819536523000, N 6800157615289823000, P 14190739125793207000, N 24396334530020560000,
  P 36524330106695854000, N 49002530970728445000, P 59891982297556990000, N 67328185687560190000,
  P 69969503035371570000, N 67328185687560190000, P 59891982297556990000, N 49002530970728445000,
  P 36524330106695854000, N 24396334530020560000, P 14190739125793207000, N 6800157615289823000,
  P 2332434819536523000]
/-- `case 16` of `getWigner3j`, times `10 ^ 21`; the rows above are its parts with `m1 = -16, ..., 16`. -/
noncomputable def table16 : List (List Int) := [
  row16_0, row16_1, row16_2, row16_3, row16_4, row16_5,
  row16_6, row16_7, row16_8, row16_9, row16_10, row16_11,
  row16_12, row16_13, row16_14, row16_15, row16_16, row16_17,
  row16_18, row16_19, row16_20, row16_21, row16_22, row16_23,
  row16_24, row16_25, row16_26, row16_27, row16_28, row16_29,
  row16_30, row16_31, row16_32]

/-- `freud/order/Wigner3j.cc`, `case 17`, the values with `m1 = -17`. -/
noncomputable def row17_0 : List Int := [
  P 1743035170668263800, N 5229105512004791000, P 11222567573749308000, N 19838884084305990000,
  P 30547808720168414000, N 42181056145679366000, P 53124807143824525000, N 61655424782187040000,
  P 66330675940209570000, N 66330675940209570000, P 61655424782187040000, N 53124807143824525000,
  P 42181056145679366000, N 30547808720168414000, P 19838884084305990000, N 11222567573749308000,
  P 5229105512004791000, N 1743035170668263800]
/-- `freud/order/Wigner3j.cc`, `case 17`, the values with `m1 = -16`. -/
noncomputable def row17_1 : List Int := [
  N 5229105512004791000, P 13944281365346110000, N 26271987923296436000, P 40072581556208235000,
  N 51941664196166640000, P 58174663899706640000, N 55937562598944036000, P 44252599268367825000,
  N 24461544628521993000, P 0, P 24461544628521993000, N 44252599268367825000,
  P 55937562598944036000, N 58174663899706640000, P 51941664196166640000, N 40072581556208235000,
  P 26271987923296436000, N 13944281365346110000, P 5229105512004791000]
/-- `freud/order/Wigner3j.cc`, `case 17`, the values with `m1 = -15`. -/
noncomputable def row17_2 : List Int := [
  P 11222567573749308000, N 26271987923296436000, P 42625132809978450000, N 54317502195318010000,
  P 55812960077239460000, N 44477242872355800000, P 21985802085253255000, P 5901803984617525000,
  N 31132874981755262000, P 46059565642480580000, N 46059565642480580000, P 31132874981755262000,
  N 5901803984617525000, N 21985802085253255000, P 44477242872355800000, N 55812960077239460000,
  P 54317502195318010000, N 42625132809978450000, P 26271987923296436000, N 11222567573749308000]
/-- `freud/order/Wigner3j.cc`, `case 17`, the values with `m1 = -14`. -/
noncomputable def row17_3 : List Int := [
  N 19838884084305990000, P 40072581556208235000, N 54317502195318010000, P 54351005776292226000,
  N 37587226681516275000, P 8859200012260232000, P 21404167109452903000, N 41601500092193510000,
  P 43935651885486024000, N 27774963135064168000, P 0, P 27774963135064168000,
  N 43935651885486024000, P 41601500092193510000, N 21404167109452903000, N 8859200012260232000,
  P 37587226681516275000, N 54351005776292226000, P 54317502195318010000, N 40072581556208235000,
  P 19838884084305990000]
/-- `freud/order/Wigner3j.cc`, `case 17`, the values with `m1 = -13`. -/
noncomputable def row17_4 : List Int := [
  P 30547808720168414000, N 51941664196166640000, P 55812960077239460000, N 37587226681516275000,
  P 4694949572606452000, P 27469032528210216000, N 43787047343010170000, P 37147656387073826000,
  N 11818442611335637000, N 18917278287409266000, P 39437797520839125000, N 39437797520839125000,
  P 18917278287409266000, P 11818442611335637000, N 37147656387073826000, P 43787047343010170000,
  N 27469032528210216000, N 4694949572606452000, P 37587226681516275000, N 55812960077239460000,
  P 51941664196166640000, N 30547808720168414000]
/-- `freud/order/Wigner3j.cc`, `case 17`, the values with `m1 = -12`. -/
noncomputable def row17_5 : List Int := [
  N 42181056145679366000, P 58174663899706640000, N 44477242872355800000, P 8859200012260232000,
  P 27469032528210216000, N 43928575532912200000, P 32750644002839130000, N 2481955250691748000,
  N 28031368008618700000, P 40882605435980400000, N 29073930064566367000, P 0,
  P 29073930064566367000, N 40882605435980400000, P 28031368008618700000, P 2481955250691748000,
  N 32750644002839130000, P 43928575532912200000, N 27469032528210216000, N 8859200012260232000,
  P 44477242872355800000, N 58174663899706640000, P 42181056145679366000]
/-- `freud/order/Wigner3j.cc`, `case 17`, the values with `m1 = -11`. -/
noncomputable def row17_6 : List Int := [
  P 53124807143824525000, N 55937562598944036000, P 21985802085253255000, P 21404167109452903000,
  N 43787047343010170000, P 32750644002839130000, P 496965078743975100, N 31478857394074876000,
  P 39572314531603744000, N 20634911822652164000, N 11729746062562187000, P 35812206555850930000,
  N 35812206555850930000, P 11729746062562187000, P 20634911822652164000, N 39572314531603744000,
  P 31478857394074876000, N 496965078743975100, N 32750644002839130000, P 43787047343010170000,
  N 21404167109452903000, N 21985802085253255000, P 55937562598944036000, N 53124807143824525000]
/-- `freud/order/Wigner3j.cc`, `case 17`, the values with `m1 = -10`. -/
noncomputable def row17_7 : List Int := [
  N 61655424782187040000, P 44252599268367825000, P 5901803984617525000, N 41601500092193510000,
  P 37147656387073826000, N 2481955250691748000, N 31478857394074876000, P 38835542743301570000,
  N 16237432158081600000, N 17709489651333135000, P 37670703717247760000, N 29646682329874600000,
  P 0, P 29646682329874600000, N 37670703717247760000, P 17709489651333135000,
  P 16237432158081600000, N 38835542743301570000, P 31478857394074876000, P 2481955250691748000,
  N 37147656387073826000, P 41601500092193510000, N 5901803984617525000, N 44252599268367825000,
  P 61655424782187040000]
/-- `freud/order/Wigner3j.cc`, `case 17`, the values with `m1 = -9`. -/
noncomputable def row17_8 : List Int := [
  P 66330675940209570000, N 24461544628521993000, N 31132874981755262000, P 43935651885486024000,
  N 11818442611335637000, N 28031368008618700000, P 39572314531603744000, N 16237432158081600000,
  N 19509132806591600000, P 37909967088927410000, N 25342972726045895000, N 7058733888065381000,
  P 33512263744349760000, N 33512263744349760000, P 7058733888065381000, P 25342972726045895000,
  N 37909967088927410000, P 19509132806591600000, P 16237432158081600000, N 39572314531603744000,
  P 28031368008618700000, P 11818442611335637000, N 43935651885486024000, P 31132874981755262000,
  P 24461544628521993000, N 66330675940209570000]
/-- `freud/order/Wigner3j.cc`, `case 17`, the values with `m1 = -8`. -/
noncomputable def row17_9 : List Int := [
  N 66330675940209570000, P 0, P 46059565642480580000, N 27774963135064168000,
  N 18917278287409266000, P 40882605435980400000, N 20634911822652164000, N 17709489651333135000,
  P 37909967088927410000, N 23842573112837388000, N 10298671573246517000, P 34910987842325304000,
  N 29897717143609070000, P 0, P 29897717143609070000, N 34910987842325304000,
  P 10298671573246517000, P 23842573112837388000, N 37909967088927410000, P 17709489651333135000,
  P 20634911822652164000, N 40882605435980400000, P 18917278287409266000, P 27774963135064168000,
  N 46059565642480580000, P 0, P 66330675940209570000]
/-- `freud/order/Wigner3j.cc`, `case 17`, the values with `m1 = -7`. -/
noncomputable def row17_10 : List Int := [
  P 61655424782187040000, P 24461544628521993000, N 46059565642480580000, P 0,
  P 39437797520839125000, N 29073930064566367000, N 11729746062562187000, P 37670703717247760000,
  N 25342972726045895000, N 10298671573246517000, P 35236460363309956000, N 27914074143408192000,
  N 3930156983391267000, P 31977981065363530000, N 31977981065363530000, P 3930156983391267000,
  P 27914074143408192000, N 35236460363309956000, P 10298671573246517000, P 25342972726045895000,
  N 37670703717247760000, P 11729746062562187000, P 29073930064566367000, N 39437797520839125000,
  P 0, P 46059565642480580000, N 24461544628521993000, N 61655424782187040000]
/-- `freud/order/Wigner3j.cc`, `case 17`, the values with `m1 = -6`. -/
noncomputable def row17_11 : List Int := [
  N 53124807143824525000, N 44252599268367825000, P 31132874981755262000, P 27774963135064168000,
  N 39437797520839125000, P 0, P 35812206555850930000, N 29646682329874600000,
  N 7058733888065381000, P 34910987842325304000, N 27914074143408192000, N 5183865444542137000,
  P 32758834385216180000, N 29998005271263267000, P 0, P 29998005271263267000,
  N 32758834385216180000, P 5183865444542137000, P 27914074143408192000, N 34910987842325304000,
  P 7058733888065381000, P 29646682329874600000, N 35812206555850930000, P 0,
  P 39437797520839125000, N 27774963135064168000, N 31132874981755262000, P 44252599268367825000,
  P 53124807143824525000]
/-- `freud/order/Wigner3j.cc`, `case 17`, the values with `m1 = -5`. -/
noncomputable def row17_12 : List Int := [
  P 42181056145679366000, P 55937562598944036000, N 5901803984617525000, N 43935651885486024000,
  P 18917278287409266000, P 29073930064566367000, N 35812206555850930000, P 0,
  P 33512263744349760000, N 29897717143609070000, N 3930156983391267000, P 32758834385216180000,
  N 29309423992358582000, N 1864118640972146800, P 30960752045579800000, N 30960752045579800000,
  P 1864118640972146800, P 29309423992358582000, N 32758834385216180000, P 3930156983391267000,
  P 29897717143609070000, N 33512263744349760000, P 0, P 35812206555850930000,
  N 29073930064566367000, N 18917278287409266000, P 43935651885486024000, P 5901803984617525000,
  N 55937562598944036000, N 42181056145679366000]
/-- `freud/order/Wigner3j.cc`, `case 17`, the values with `m1 = -4`. -/
noncomputable def row17_13 : List Int := [
  N 30547808720168414000, N 58174663899706640000, N 21985802085253255000, P 41601500092193510000,
  P 11818442611335637000, N 40882605435980400000, P 11729746062562187000, P 29646682329874600000,
  N 33512263744349760000, P 0, P 31977981065363530000, N 29998005271263267000,
  N 1864118640972146800, P 31237620296284710000, N 30030165526296216000, P 0,
  P 30030165526296216000, N 31237620296284710000, P 1864118640972146800, P 29998005271263267000,
  N 31977981065363530000, P 0, P 33512263744349760000, N 29646682329874600000,
  N 11729746062562187000, P 40882605435980400000, N 11818442611335637000, N 41601500092193510000,
  P 21985802085253255000, P 58174663899706640000, P 30547808720168414000]
/-- `freud/order/Wigner3j.cc`, `case 17`, the values with `m1 = -3`. -/
noncomputable def row17_14 : List Int := [
  P 19838884084305990000, P 51941664196166640000, P 44477242872355800000, N 21404167109452903000,
  N 37147656387073826000, P 28031368008618700000, P 20634911822652164000, N 37670703717247760000,
  P 7058733888065381000, P 29897717143609070000, N 31977981065363530000, P 0,
  P 30960752045579800000, N 30030165526296216000, N 600723467236244400, P 30335048119712202000,
  N 30335048119712202000, P 600723467236244400, P 30030165526296216000, N 30960752045579800000,
  P 0, P 31977981065363530000, N 29897717143609070000, N 7058733888065381000,
  P 37670703717247760000, N 20634911822652164000, N 28031368008618700000, P 37147656387073826000,
  P 21404167109452903000, N 44477242872355800000, N 51941664196166640000, N 19838884084305990000]
/-- `freud/order/Wigner3j.cc`, `case 17`, the values with `m1 = -2`. -/
noncomputable def row17_15 : List Int := [
  N 11222567573749308000, N 40072581556208235000, N 55812960077239460000, N 8859200012260232000,
  P 43787047343010170000, P 2481955250691748000, N 39572314531603744000, P 17709489651333135000,
  P 25342972726045895000, N 34910987842325304000, P 3930156983391267000, P 29998005271263267000,
  N 30960752045579800000, P 0, P 30335048119712202000, N 30036173361812222000,
  P 0, P 30036173361812222000, N 30335048119712202000, P 0,
  P 30960752045579800000, N 29998005271263267000, N 3930156983391267000, P 34910987842325304000,
  N 25342972726045895000, N 17709489651333135000, P 39572314531603744000, N 2481955250691748000,
  N 43787047343010170000, P 8859200012260232000, P 55812960077239460000, P 40072581556208235000,
  P 11222567573749308000]
/-- `freud/order/Wigner3j.cc`, `case 17`, the values with `m1 = -1`. -/
noncomputable def row17_16 : List Int := [
  P 5229105512004791000, P 26271987923296436000, P 54317502195318010000, P 37587226681516275000,
  N 27469032528210216000, N 32750644002839130000, P 31478857394074876000, P 16237432158081600000,
  N 37909967088927410000, P 10298671573246517000, P 27914074143408192000, N 32758834385216180000,
  P 1864118640972146800, P 30030165526296216000, N 30335048119712202000, P 0,
  P 30036173361812222000, N 30036173361812222000, P 0, P 30335048119712202000,
  N 30030165526296216000, N 1864118640972146800, P 32758834385216180000, N 27914074143408192000,
  N 10298671573246517000, P 37909967088927410000, N 16237432158081600000, N 31478857394074876000,
  P 32750644002839130000, P 27469032528210216000, N 37587226681516275000, N 54317502195318010000,
  N 26271987923296436000, N 5229105512004791000]
/-- `freud/order/Wigner3j.cc`, `case 17`, the values with `m1 = 0`. -/
noncomputable def row17_17 : List Int := [
  N 1743035170668263800, N 13944281365346110000, N 42625132809978450000, N 54351005776292226000,
  N 4694949572606452000, P 43928575532912200000, N 496965078743975100, N 38835542743301570000,
  P 19509132806591600000, P 23842573112837388000, N 35236460363309956000, P 5183865444542137000,
  P 29309423992358582000, N 31237620296284710000, P 600723467236244400, P 30036173361812222000,
  N 30036173361812222000, P 0, P 30036173361812222000, N 30036173361812222000,
  N 600723467236244400, P 31237620296284710000, N 29309423992358582000, N 5183865444542137000,
  P 35236460363309956000, N 23842573112837388000, N 19509132806591600000, P 38835542743301570000,
  P 496965078743975100, N 43928575532912200000, P 4694949572606452000, P 54351005776292226000,
  P 42625132809978450000, P 13944281365346110000, P 1743035170668263800]
/-- `freud/order/Wigner3j.cc`, `case 17`, the values with `m1 = 1`. -/
noncomputable def row17_18 : List Int := [
  P 5229105512004791000, P 26271987923296436000, P 54317502195318010000, P 37587226681516275000,
  N 27469032528210216000, N 32750644002839130000, P 31478857394074876000, P 16237432158081600000,
  N 37909967088927410000, P 10298671573246517000, P 27914074143408192000, N 32758834385216180000,
  P 1864118640972146800, P 30030165526296216000, N 30335048119712202000, P 0,
  P 30036173361812222000, N 30036173361812222000, P 0, P 30335048119712202000,
  N 30030165526296216000, N 1864118640972146800, P 32758834385216180000, N 27914074143408192000,
  N 10298671573246517000, P 37909967088927410000, N 16237432158081600000, N 31478857394074876000,
  P 32750644002839130000, P 27469032528210216000, N 37587226681516275000, N 54317502195318010000,
  N 26271987923296436000, N 5229105512004791000]
/-- `freud/order/Wigner3j.cc`, `case 17`, the values with `m1 = 2`. -/
noncomputable def row17_19 : List Int := [
  N 11222567573749308000, N 40072581556208235000, N 55812960077239460000, N 8859200012260232000,
  P 43787047343010170000, P 2481955250691748000, N 39572314531603744000, P 17709489651333135000,
  P 25342972726045895000, N 34910987842325304000, P 3930156983391267000, P 29998005271263267000,
  N 30960752045579800000, P 0, P 30335048119712202000, N 30036173361812222000,
  P 0, P 30036173361812222000, N 30335048119712202000, P 0,
  P 30960752045579800000, N 29998005271263267000, N 3930156983391267000, P 34910987842325304000,
  N 25342972726045895000, N 17709489651333135000, P 39572314531603744000, N 2481955250691748000,
  N 43787047343010170000, P 8859200012260232000, P 55812960077239460000, P 40072581556208235000,
  P 11222567573749308000]
/-- `freud/order/Wigner3j.cc`, `case 17`, the values with `m1 = 3`. -/
noncomputable def row17_20 : List Int := [
  P 19838884084305990000, P 51941664196166640000, P 44477242872355800000, N 21404167109452903000,
  N 37147656387073826000, P 28031368008618700000, P 20634911822652164000, N 37670703717247760000,
  P 7058733888065381000, P 29897717143609070000, N 31977981065363530000, P 0,
  P 30960752045579800000, N 30030165526296216000, N 600723467236244400, P 30335048119712202000,
  N 30335048119712202000, P 600723467236244400, P 30030165526296216000, N 30960752045579800000,
  P 0, P 31977981065363530000, N 29897717143609070000, N 7058733888065381000,
  P 37670703717247760000, N 20634911822652164000, N 28031368008618700000, P 37147656387073826000,
  P 21404167109452903000, N 44477242872355800000, N 51941664196166640000, N 19838884084305990000]
/-- `freud/order/Wigner3j.cc`, `case 17`, the values with `m1 = 4`. -/
noncomputable def row17_21 : List Int := [
  N 30547808720168414000, N 58174663899706640000, N 21985802085253255000, P 41601500092193510000,
  P 11818442611335637000, N 40882605435980400000, P 11729746062562187000, P 29646682329874600000,
  N 33512263744349760000, P 0, P 31977981065363530000, N 29998005271263267000,
  N 1864118640972146800, P 31237620296284710000, N 30030165526296216000, P 0,
  P 30030165526296216000, N 31237620296284710000, P 1864118640972146800, P 29998005271263267000,
  N 31977981065363530000, P 0, P 33512263744349760000, N 29646682329874600000,
  N 11729746062562187000, P 40882605435980400000, N 11818442611335637000, N 41601500092193510000,
  P 21985802085253255000, P 58174663899706640000, P 30547808720168414000]
/-- `freud/order/Wigner3j.cc`, `case 17`, the values with `m1 = 5`. -/
noncomputable def row17_22 : List Int := [
  P 42181056145679366000, P 55937562598944036000, N 5901803984617525000, N 43935651885486024000,
  P 18917278287409266000, P 29073930064566367000, N 35812206555850930000, P 0,
  P 33512263744349760000, N 29897717143609070000, N 3930156983391267000, P 32758834385216180000,
  N 29309423992358582000, N 1864118640972146800, P 30960752045579800000, N 30960752045579800000,
  P 1864118640972146800, P 29309423992358582000, N 32758834385216180000, P 3930156983391267000,
  P 29897717143609070000, N 33512263744349760000, P 0, P 35812206555850930000,
  N 29073930064566367000, N 18917278287409266000, P 43935651885486024000, P 5901803984617525000,
  N 55937562598944036000, N 42181056145679366000]
/-- `freud/order/Wigner3j.cc`, `case 17`, the values with `m1 = 6`. -/
noncomputable def row17_23 : List Int := [
  N 53124807143824525000, N 44252599268367825000, P 31132874981755262000, P 27774963135064168000,
  N 39437797520839125000, P 0, P 35812206555850930000, N 29646682329874600000,
  N 7058733888065381000, P 34910987842325304000, N 27914074143408192000, N 5183865444542137000,
  P 32758834385216180000, N 29998005271263267000, P 0, P 29998005271263267000,
  N 32758834385216180000, P 5183865444542137000, P 27914074143408192000, N 34910987842325304000,
  P 7058733888065381000, P 29646682329874600000, N 35812206555850930000, P 0,
  P 39437797520839125000, N 27774963135064168000, N 31132874981755262000, P 44252599268367825000,
  P 53124807143824525000]
/-- `freud/order/Wigner3j.cc`, `case 17`, the values with `m1 = 7`. -/
noncomputable def row17_24 : List Int := [
  P 61655424782187040000, P 24461544628521993000, N 46059565642480580000, P 0,
  P 39437797520839125000, N 29073930064566367000, N 11729746062562187000, P 37670703717247760000,
  N 25342972726045895000, N 10298671573246517000, P 35236460363309956000, N 27914074143408192000,
  N 3930156983391267000, P 31977981065363530000, N 31977981065363530000, P 3930156983391267000,
  P 27914074143408192000, N 35236460363309956000, P 10298671573246517000, P 25342972726045895000,
  N 37670703717247760000, P 11729746062562187000, P 29073930064566367000, N 39437797520839125000,
  P 0, P 46059565642480580000, N 24461544628521993000, N 61655424782187040000]
/-- `freud/order/Wigner3j.cc`, `case 17`, the values with `m1 = 8`. -/
noncomputable def row17_25 : List Int := [
  N 66330675940209570000, P 0, P 46059565642480580000, N 27774963135064168000,
  N 18917278287409266000, P 40882605435980400000, N 20634911822652164000, N 17709489651333135000,
  P 37909967088927410000, N 23842573112837388000, N 10298671573246517000, P 34910987842325304000,
  N 29897717143609070000, P 0, P 29897717143609070000, N 34910987842325304000,
  P 10298671573246517000, P 23842573112837388000, N 37909967088927410000, P 17709489651333135000,
  P 20634911822652164000, N 40882605435980400000, P 18917278287409266000, P 27774963135064168000,
  N 46059565642480580000, P 0, P 66330675940209570000]
/-- `freud/order/Wigner3j.cc`, `case 17`, the values with `m1 = 9`. -/
noncomputable def row17_26 : List Int := [
  P 66330675940209570000, N 24461544628521993000, N 31132874981755262000, P 43935651885486024000,
  N 11818442611335637000, N 28031368008618700000, P 39572314531603744000, N 16237432158081600000,
  N 19509132806591600000, P 37909967088927410000, N 25342972726045895000, N 7058733888065381000,
  P 33512263744349760000, N 33512263744349760000, P 7058733888065381000, P 25342972726045895000,
  N 37909967088927410000, P 19509132806591600000, P 16237432158081600000, N 39572314531603744000,
  P 28031368008618700000, P 11818442611335637000, N 43935651885486024000, P 31132874981755262000,
  P 24461544628521993000, N 66330675940209570000]
/-- `freud/order/Wigner3j.cc`, `case 17`, the values with `m1 = 10`. -/
noncomputable def row17_27 : List Int := [
  N 61655424782187040000, P 44252599268367825000, P 5901803984617525000, N 41601500092193510000,
  P 37147656387073826000, N 2481955250691748000, N 31478857394074876000, P 38835542743301570000,
  N 16237432158081600000, N 17709489651333135000, P 37670703717247760000, N 29646682329874600000,
  P 0, P 29646682329874600000, N 37670703717247760000, P 17709489651333135000,
  P 16237432158081600000, N 38835542743301570000, P 31478857394074876000, P 2481955250691748000,
  N 37147656387073826000, P 41601500092193510000, N 5901803984617525000, N 44252599268367825000,
  P 61655424782187040000]
/-- `freud/order/Wigner3j.cc`, `case 17`, the values with `m1 = 11`. -/
noncomputable def row17_28 : List Int := [
  P 53124807143824525000, N 55937562598944036000, P 21985802085253255000, P 21404167109452903000,
  N 43787047343010170000, P 32750644002839130000, P 496965078743975100, N 31478857394074876000,
  P 39572314531603744000, N 20634911822652164000, N 11729746062562187000, P 35812206555850930000,
  N 35812206555850930000, P 11729746062562187000, P 20634911822652164000, N 39572314531603744000,
  P 31478857394074876000, N 496965078743975100, N 32750644002839130000, P 43787047343010170000,
  N 21404167109452903000, N 21985802085253255000, P 55937562598944036000, N 53124807143824525000]
/-- `freud/order/Wigner3j.cc`, `case 17`, the values with `m1 = 12`. -/
noncomputable def row17_29 : List Int := [
  N 42181056145679366000, P 58174663899706640000, N 44477242872355800000, P 8859200012260232000,
  P 27469032528210216000, N 43928575532912200000, P 32750644002839130000, N 2481955250691748000,
  N 28031368008618700000, P 40882605435980400000, N 29073930064566367000, P 0,
  P 29073930064566367000, N 40882605435980400000, P 28031368008618700000, P 2481955250691748000,
  N 32750644002839130000, P 43928575532912200000, N 27469032528210216000, N 8859200012260232000,
  P 44477242872355800000, N 58174663899706640000, P 42181056145679366000]
/-- `freud/order/Wigner3j.cc`, `case 17`, the values with `m1 = 13`. -/
noncomputable def row17_30 : List Int := [
  P 30547808720168414000, N 51941664196166640000, P 55812960077239460000, N 37587226681516275000,
  P 4694949572606452000, P 27469032528210216000, N 43787047343010170000, P 37147656387073826000,
  N 11818442611335637000, N 18917278287409266000, P 39437797520839125000, N 39437797520839125000,
  P 18917278287409266000, P 11818442611335637000, N 37147656387073826000, P 43787047343010170000,
  N 27469032528210216000, N 4694949572606452000, P 37587226681516275000, N 55812960077239460000,
  P 51941664196166640000, N 30547808720168414000]
/-- `freud/order/Wigner3j.cc`, `case 17`, the values with `m1 = 14`. -/
noncomputable def row17_31 : List Int := [
  N 19838884084305990000, P 40072581556208235000, N 54317502195318010000, P 54351005776292226000,
  N 37587226681516275000, P 8859200012260232000, P 21404167109452903000, N 41601500092193510000,
  P 43935651885486024000, N 27774963135064168000, P 0, P 27774963135064168000,
  N 43935651885486024000, P 41601500092193510000, N 21404167109452903000, N 8859200012260232000,
  P 37587226681516275000, N 54351005776292226000, P 54317502195318010000, N 40072581556208235000,
  P 19838884084305990000]
/-- `freud/order/Wigner3j.cc`, `case 17`, the values with `m1 = 15`. -/
noncomputable def row17_32 : List Int := [
  P 11222567573749308000, N 26271987923296436000, P 42625132809978450000, N 54317502195318010000,
  P 55812960077239460000, N 44477242872355800000, P 21985802085253255000, P 5901803984617525000,
  N 31132874981755262000, P 46059565642480580000, N 46059565642480580000, P 31132874981755262000,
  N 5901803984617525000, N 21985802085253255000, P 44477242872355800000, N 55812960077239460000,
  P 54317502195318010000, N 42625132809978450000, P 26271987923296436000, N 11222567573749308000]
/-- `freud/order/Wigner3j.cc`, `case 17`, the values with `m1 = 16`. -/
noncomputable def row17_33 : List Int := [
  N 5229105512004791000, P 13944281365346110000, N 26271987923296436000, P 40072581556208235000,
  N 51941664196166640000, P 58174663899706640000, N 55937562598944036000, P 44252599268367825000,
  N 24461544628521993000, P 0, P 24461544628521993000, N 44252599268367825000,
  P 55937562598944036000, N 58174663899706640000, P 51941664196166640000, N 40072581556208235000,
  P 26271987923296436000, N 13944281365346110000, P 5229105512004791000]
/-- `freud/order/Wigner3j.cc`, `case 17`, the values with `m1 = 17`. -/
noncomputable def row17_34 : List Int := [
  P 1743035170668263800, N 5229105512004791000, P 11222567573749308000, N 19838884084305990000,
  P 30547808720168414000, N 42181056145679366000, P 53124807143824525000, N 61655424782187040000,
  P 66330675940209570000, N 66330675940209570000, P 61655424782187040000, N 53124807143824525000,
  P 42181056145679366000, N 30547808720168414000, P 19838884084305990000, N 11222567573749308000,
  P 5229105512004791000, N 1743035170668263800]
/-- `case 17` of `getWigner3j`, times `10 ^ 21`; the rows above are its parts with `m1 = -17, ..., 17`. -/
noncomputable def table17 : List (List Int) := [
  row17_0, row17_1, row17_2, row17_3, row17_4, row17_5,
  row17_6, row17_7, row17_8, row17_9, row17_10, row17_11,
  row17_12, row17_13, row17_14, row17_15, row17_16, row17_17,
  row17_18, row17_19, row17_20, row17_21, row17_22, row17_23,
  row17_24, row17_25, row17_26, row17_27, row17_28, row17_29,
  row17_30, row17_31, row17_32, row17_33, row17_34]

/-- `freud/order/Wigner3j.cc`, `case 18`, the values with `m1 = -18`. -/
noncomputable def row18_0 : List Int := [
  P 1304740920737700700, N 4021481601021059000, P 8862913783126458000, N 16085926404084235000,
  P 25434082855374122000, N 36081453664199105000, P 46730975954385790000, N 55854199402799510000,
  P 62014729722938680000, N 64191343730586900000, P 62014729722938680000, N 55854199402799510000,
  P 46730975954385790000, N 36081453664199105000, P 25434082855374122000, N 16085926404084235000,
  P 8862913783126458000, N 4021481601021059000, P 1304740920737700700]
/-- `freud/order/Wigner3j.cc`, `case 18`, the values with `m1 = -17`. -/
noncomputable def row18_1 : List Int := [
  N 4021481601021059000, P 11090297826270456000, N 21629654376535128000, P 34224809993309374000,
  N 46203305977931040000, P 54290001613784290000, N 55558031399130080000, P 48371155590866000000,
  N 33003070577177620000, P 11719682319270088000, P 11719682319270088000, N 33003070577177620000,
  P 48371155590866000000, N 55558031399130080000, P 54290001613784290000, N 46203305977931040000,
  P 34224809993309374000, N 21629654376535128000, P 11090297826270456000, N 4021481601021059000]
/-- `freud/order/Wigner3j.cc`, `case 18`, the values with `m1 = -16`. -/
noncomputable def row18_2 : List Int := [
  P 8862913783126458000, N 21629654376535128000, P 36719137340761000000, N 49318181850982510000,
  P 54228413390198830000, N 48023822536890160000, P 30661955327869358000, N 5891591825620426000,
  N 19737711376807900000, P 38929754140864680000, N 46033998299049260000, P 38929754140864680000,
  N 19737711376807900000, N 5891591825620426000, P 30661955327869358000, N 48023822536890160000,
  P 54228413390198830000, N 49318181850982510000, P 36719137340761000000, N 21629654376535128000,
  P 8862913783126458000]
/-- `freud/order/Wigner3j.cc`, `case 18`, the values with `m1 = -15`. -/
noncomputable def row18_3 : List Int := [
  N 16085926404084235000, P 34224809993309374000, N 49318181850982510000, P 53587573530298420000,
  N 42903069836650250000, P 19243518181438157000, P 9699043537804111000, N 33527693977816910000,
  P 43405647077271720000, N 35740035642216395000, P 13745665494121932000, P 13745665494121932000,
  N 35740035642216395000, P 43405647077271720000, N 33527693977816910000, P 9699043537804111000,
  P 19243518181438157000, N 42903069836650250000, P 53587573530298420000, N 49318181850982510000,
  P 34224809993309374000, N 16085926404084235000]
/-- `freud/order/Wigner3j.cc`, `case 18`, the values with `m1 = -14`. -/
noncomputable def row18_4 : List Int := [
  P 25434082855374122000, N 46203305977931040000, P 54228413390198830000, N 42903069836650250000,
  P 15470499488747022000, P 16350481835597650000, N 38317364546076470000, P 40778414485773970000,
  N 23344498615084593000, N 5026352155495699000, P 30392809958491737000, N 40466143530873036000,
  P 30392809958491737000, N 5026352155495699000, N 23344498615084593000, P 40778414485773970000,
  N 38317364546076470000, P 16350481835597650000, P 15470499488747022000, N 42903069836650250000,
  P 54228413390198830000, N 46203305977931040000, P 25434082855374122000]
/-- `freud/order/Wigner3j.cc`, `case 18`, the values with `m1 = -13`. -/
noncomputable def row18_5 : List Int := [
  N 36081453664199105000, P 54290001613784290000, N 48023822536890160000, P 19243518181438157000,
  P 16350481835597650000, N 39375217072262755000, P 38227703390916495000, N 15195480876658785000,
  N 15577729793770681000, P 36427627581107305000, N 35911826403964060000, P 14776146418067274000,
  P 14776146418067274000, N 35911826403964060000, P 36427627581107305000, N 15577729793770681000,
  N 15195480876658785000, P 38227703390916495000, N 39375217072262755000, P 16350481835597650000,
  P 19243518181438157000, N 48023822536890160000, P 54290001613784290000, N 36081453664199105000]
/-- `freud/order/Wigner3j.cc`, `case 18`, the values with `m1 = -12`. -/
noncomputable def row18_6 : List Int := [
  P 46730975954385790000, N 55558031399130080000, P 30661955327869358000, P 9699043537804111000,
  N 38317364546076470000, P 38227703390916495000, N 12461177687690712000, N 20074613689540676000,
  P 37907925294660534000, N 30389089420120526000, P 3361715377185504500, P 25393803691065763000,
  N 37531449433359080000, P 25393803691065763000, P 3361715377185504500, N 30389089420120526000,
  P 37907925294660534000, N 20074613689540676000, N 12461177687690712000, P 38227703390916495000,
  N 38317364546076470000, P 9699043537804111000, P 30661955327869358000, N 55558031399130080000,
  P 46730975954385790000]
/-- `freud/order/Wigner3j.cc`, `case 18`, the values with `m1 = -11`. -/
noncomputable def row18_7 : List Int := [
  N 55854199402799510000, P 48371155590866000000, N 5891591825620426000, N 33527693977816910000,
  P 40778414485773970000, N 15195480876658785000, N 20074613689540676000, P 38079495097981766000,
  N 27134771655446530000, N 3086556149769939400, P 30243855258668230000, N 35367742510235445000,
  P 15395638021716078000, P 15395638021716078000, N 35367742510235445000, P 30243855258668230000,
  N 3086556149769939400, N 27134771655446530000, P 38079495097981766000, N 20074613689540676000,
  N 15195480876658785000, P 40778414485773970000, N 33527693977816910000, N 5891591825620426000,
  P 48371155590866000000, N 55854199402799510000]
/-- `freud/order/Wigner3j.cc`, `case 18`, the values with `m1 = -10`. -/
noncomputable def row18_8 : List Int := [
  P 62014729722938680000, N 33003070577177620000, N 19737711376807900000, P 43405647077271720000,
  N 23344498615084593000, N 15577729793770681000, P 37907925294660534000, N 27134771655446530000,
  N 5134061186996236000, P 32016738327393095000, N 33067012650736600000, P 8601683939533786000,
  P 22080648802315684000, N 35707627184336150000, P 22080648802315684000, P 8601683939533786000,
  N 33067012650736600000, P 32016738327393095000, N 5134061186996236000, N 27134771655446530000,
  P 37907925294660534000, N 15577729793770681000, N 23344498615084593000, P 43405647077271720000,
  N 19737711376807900000, N 33003070577177620000, P 62014729722938680000]
/-- `freud/order/Wigner3j.cc`, `case 18`, the values with `m1 = -9`. -/
noncomputable def row18_9 : List Int := [
  N 64191343730586900000, P 11719682319270088000, P 38929754140864680000, N 35740035642216395000,
  N 5026352155495699000, P 36427627581107305000, N 30389089420120526000, N 3086556149769939400,
  P 32016738327393095000, N 32164310214993270000, P 5268628994424059000, P 25294797069790202000,
  N 34653070555603980000, P 15794407205124910000, P 15794407205124910000, N 34653070555603980000,
  P 25294797069790202000, P 5268628994424059000, N 32164310214993270000, P 32016738327393095000,
  N 3086556149769939400, N 30389089420120526000, P 36427627581107305000, N 5026352155495699000,
  N 35740035642216395000, P 38929754140864680000, P 11719682319270088000, N 64191343730586900000]
/-- `freud/order/Wigner3j.cc`, `case 18`, the values with `m1 = -8`. -/
noncomputable def row18_10 : List Int := [
  P 62014729722938680000, P 11719682319270088000, N 46033998299049260000, P 13745665494121932000,
  P 30392809958491737000, N 35911826403964060000, P 3361715377185504500, P 30243855258668230000,
  N 33067012650736600000, P 5268628994424059000, P 26234663917858666000, N 33807481894770560000,
  P 11994061343288380000, P 19789557383405530000, N 34496845216046050000, P 19789557383405530000,
  P 11994061343288380000, N 33807481894770560000, P 26234663917858666000, P 5268628994424059000,
  N 33067012650736600000, P 30243855258668230000, P 3361715377185504500, N 35911826403964060000,
  P 30392809958491737000, P 13745665494121932000, N 46033998299049260000, P 11719682319270088000,
  P 62014729722938680000]
/-- `freud/order/Wigner3j.cc`, `case 18`, the values with `m1 = -7`. -/
noncomputable def row18_11 : List Int := [
  N 55854199402799510000, N 33003070577177620000, P 38929754140864680000, P 13745665494121932000,
  N 40466143530873036000, P 14776146418067274000, P 25393803691065763000, N 35367742510235445000,
  P 8601683939533786000, P 25294797069790202000, N 33807481894770560000, P 10734775103588909000,
  P 21547612907409080000, N 33977161626420460000, P 16057407578320310000, P 16057407578320310000,
  N 33977161626420460000, P 21547612907409080000, P 10734775103588909000, N 33807481894770560000,
  P 25294797069790202000, P 8601683939533786000, N 35367742510235445000, P 25393803691065763000,
  P 14776146418067274000, N 40466143530873036000, P 13745665494121932000, P 38929754140864680000,
  N 33003070577177620000, N 55854199402799510000]
/-- `freud/order/Wigner3j.cc`, `case 18`, the values with `m1 = -6`. -/
noncomputable def row18_12 : List Int := [
  P 46730975954385790000, P 48371155590866000000, N 19737711376807900000, N 35740035642216395000,
  P 30392809958491737000, P 14776146418067274000, N 37531449433359080000, P 15395638021716078000,
  P 22080648802315684000, N 34653070555603980000, P 11994061343288380000, P 21547612907409080000,
  N 33741330019277570000, P 14197110982159655000, P 18207388779702623000, N 33682302293633570000,
  P 18207388779702623000, P 14197110982159655000, N 33741330019277570000, P 21547612907409080000,
  P 11994061343288380000, N 34653070555603980000, P 22080648802315684000, P 15395638021716078000,
  N 37531449433359080000, P 14776146418067274000, P 30392809958491737000, N 35740035642216395000,
  N 19737711376807900000, P 48371155590866000000, P 46730975954385790000]
/-- `freud/order/Wigner3j.cc`, `case 18`, the values with `m1 = -5`. -/
noncomputable def row18_13 : List Int := [
  N 36081453664199105000, N 55558031399130080000, N 5891591825620426000, P 43405647077271720000,
  N 5026352155495699000, N 35911826403964060000, P 25393803691065763000, P 15395638021716078000,
  N 35707627184336150000, P 15794407205124910000, P 19789557383405530000, N 33977161626420460000,
  P 14197110982159655000, P 18877328763231643000, N 33429670362166360000, P 16228539313173543000,
  P 16228539313173543000, N 33429670362166360000, P 18877328763231643000, P 14197110982159655000,
  N 33977161626420460000, P 19789557383405530000, P 15794407205124910000, N 35707627184336150000,
  P 15395638021716078000, P 25393803691065763000, N 35911826403964060000, N 5026352155495699000,
  P 43405647077271720000, N 5891591825620426000, N 55558031399130080000, N 36081453664199105000]
/-- `freud/order/Wigner3j.cc`, `case 18`, the values with `m1 = -4`. -/
noncomputable def row18_14 : List Int := [
  P 25434082855374122000, P 54290001613784290000, P 30661955327869358000, N 33527693977816910000,
  N 23344498615084593000, P 36427627581107305000, P 3361715377185504500, N 35367742510235445000,
  P 22080648802315684000, P 15794407205124910000, N 34496845216046050000, P 16057407578320310000,
  P 18207388779702623000, N 33429670362166360000, P 15574891202332186000, P 17166433754219338000,
  N 33155160180033776000, P 17166433754219338000, P 15574891202332186000, N 33429670362166360000,
  P 18207388779702623000, P 16057407578320310000, N 34496845216046050000, P 15794407205124910000,
  P 22080648802315684000, N 35367742510235445000, P 3361715377185504500, P 36427627581107305000,
  N 23344498615084593000, N 33527693977816910000, P 30661955327869358000, P 54290001613784290000,
  P 25434082855374122000]
/-- `freud/order/Wigner3j.cc`, `case 18`, the values with `m1 = -3`. -/
noncomputable def row18_15 : List Int := [
  N 16085926404084235000, N 46203305977931040000, N 48023822536890160000, P 9699043537804111000,
  P 40778414485773970000, N 15577729793770681000, N 30389089420120526000, P 30243855258668230000,
  P 8601683939533786000, N 34653070555603980000, P 19789557383405530000, P 16057407578320310000,
  N 33682302293633570000, P 16228539313173543000, P 17166433754219338000, N 33050654952980506000,
  P 16331972733181002000, P 16331972733181002000, N 33050654952980506000, P 17166433754219338000,
  P 16228539313173543000, N 33682302293633570000, P 16057407578320310000, P 19789557383405530000,
  N 34653070555603980000, P 8601683939533786000, P 30243855258668230000, N 30389089420120526000,
  N 15577729793770681000, P 40778414485773970000, P 9699043537804111000, N 48023822536890160000,
  N 46203305977931040000, N 16085926404084235000]
/-- `freud/order/Wigner3j.cc`, `case 18`, the values with `m1 = -2`. -/
noncomputable def row18_16 : List Int := [
  P 8862913783126458000, P 34224809993309374000, P 54228413390198830000, P 19243518181438157000,
  N 38317364546076470000, N 15195480876658785000, P 37907925294660534000, N 3086556149769939400,
  N 33067012650736600000, P 25294797069790202000, P 11994061343288380000, N 33977161626420460000,
  P 18207388779702623000, P 16228539313173543000, N 33155160180033776000, P 16331972733181002000,
  P 16573506273797802000, N 32857798476650910000, P 16573506273797802000, P 16331972733181002000,
  N 33155160180033776000, P 16228539313173543000, P 18207388779702623000, N 33977161626420460000,
  P 11994061343288380000, P 25294797069790202000, N 33067012650736600000, N 3086556149769939400,
  P 37907925294660534000, N 15195480876658785000, N 38317364546076470000, P 19243518181438157000,
  P 54228413390198830000, P 34224809993309374000, P 8862913783126458000]
/-- `freud/order/Wigner3j.cc`, `case 18`, the values with `m1 = -1`. -/
noncomputable def row18_17 : List Int := [
  N 4021481601021059000, N 21629654376535128000, N 49318181850982510000, N 42903069836650250000,
  P 16350481835597650000, P 38227703390916495000, N 20074613689540676000, N 27134771655446530000,
  P 32016738327393095000, P 5268628994424059000, N 33807481894770560000, P 21547612907409080000,
  P 14197110982159655000, N 33429670362166360000, P 17166433754219338000, P 16331972733181002000,
  N 32857798476650910000, P 16380791084567595000, P 16380791084567595000, N 32857798476650910000,
  P 16331972733181002000, P 17166433754219338000, N 33429670362166360000, P 14197110982159655000,
  P 21547612907409080000, N 33807481894770560000, P 5268628994424059000, P 32016738327393095000,
  N 27134771655446530000, N 20074613689540676000, P 38227703390916495000, P 16350481835597650000,
  N 42903069836650250000, N 49318181850982510000, N 21629654376535128000, N 4021481601021059000]
/-- `freud/order/Wigner3j.cc`, `case 18`, the values with `m1 = 0`. -/
noncomputable def row18_18 : List Int := [
  P 1304740920737700700, P 11090297826270456000, P 36719137340761000000, P 53587573530298420000,
  P 15470499488747022000, N 39375217072262755000, N 12461177687690712000, P 38079495097981766000,
  N 5134061186996236000, N 32164310214993270000, P 26234663917858666000, P 10734775103588909000,
  N 33741330019277570000, P 18877328763231643000, P 15574891202332186000, N 33050654952980506000,
  P 16573506273797802000, P 16380791084567595000, N 32761582169135190000, P 16380791084567595000,
  P 16573506273797802000, N 33050654952980506000, P 15574891202332186000, P 18877328763231643000,
  N 33741330019277570000, P 10734775103588909000, P 26234663917858666000, N 32164310214993270000,
  N 5134061186996236000, P 38079495097981766000, N 12461177687690712000, N 39375217072262755000,
  P 15470499488747022000, P 53587573530298420000, P 36719137340761000000, P 11090297826270456000,
  P 1304740920737700700]
/-- `freud/order/Wigner3j.cc`, `case 18`, the values with `m1 = 1`. -/
noncomputable def row18_19 : List Int := [
  N 4021481601021059000, N 21629654376535128000, N 49318181850982510000, N 42903069836650250000,
  P 16350481835597650000, P 38227703390916495000, N 20074613689540676000, N 27134771655446530000,
  P 32016738327393095000, P 5268628994424059000, N 33807481894770560000, P 21547612907409080000,
  P 14197110982159655000, N 33429670362166360000, P 17166433754219338000, P 16331972733181002000,
  N 32857798476650910000, P 16380791084567595000, P 16380791084567595000, N 32857798476650910000,
  P 16331972733181002000, P 17166433754219338000, N 33429670362166360000, P 14197110982159655000,
  P 21547612907409080000, N 33807481894770560000, P 5268628994424059000, P 32016738327393095000,
  N 27134771655446530000, N 20074613689540676000, P 38227703390916495000, P 16350481835597650000,
  N 42903069836650250000, N 49318181850982510000, N 21629654376535128000, N 4021481601021059000]
/-- `freud/order/Wigner3j.cc`, `case 18`, the values with `m1 = 2`. -/
noncomputable def row18_20 : List Int := [
  P 8862913783126458000, P 34224809993309374000, P 54228413390198830000, P 19243518181438157000,
  N 38317364546076470000, N 15195480876658785000, P 37907925294660534000, N 3086556149769939400,
  N 33067012650736600000, P 25294797069790202000, P 11994061343288380000, N 33977161626420460000,
  P 18207388779702623000, P 16228539313173543000, N 33155160180033776000, P 16331972733181002000,
  P 16573506273797802000, N 32857798476650910000, P 16573506273797802000, P 16331972733181002000,
  N 33155160180033776000, P 16228539313173543000, P 18207388779702623000, N 33977161626420460000,
  P 11994061343288380000, P 25294797069790202000, N 33067012650736600000, N 3086556149769939400,
  P 37907925294660534000, N 15195480876658785000, N 38317364546076470000, P 19243518181438157000,
  P 54228413390198830000, P 34224809993309374000, P 8862913783126458000]
/-- `freud/order/Wigner3j.cc`, `case 18`, the values with `m1 = 3`. -/
noncomputable def row18_21 : List Int := [
  N 16085926404084235000, N 46203305977931040000, N 48023822536890160000, P 9699043537804111000,
  P 40778414485773970000, N 15577729793770681000, N 30389089420120526000, P 30243855258668230000,
  P 8601683939533786000, N 34653070555603980000, P 19789557383405530000, P 16057407578320310000,
  N 33682302293633570000, P 16228539313173543000, P 17166433754219338000, N 33050654952980506000,
  P 16331972733181002000, P 16331972733181002000, N 33050654952980506000, P 17166433754219338000,
  P 16228539313173543000, N 33682302293633570000, P 16057407578320310000, P 19789557383405530000,
  N 34653070555603980000, P 8601683939533786000, P 30243855258668230000, N 30389089420120526000,
  N 15577729793770681000, P 40778414485773970000, P 9699043537804111000, N 48023822536890160000,
  N 46203305977931040000, N 16085926404084235000]
/-- `freud/order/Wigner3j.cc`, `case 18`, the values with `m1 = 4`. -/
noncomputable def row18_22 : List Int := [
  P 25434082855374122000, P 54290001613784290000, P 30661955327869358000, N 33527693977816910000,
  N 23344498615084593000, P 36427627581107305000, P 3361715377185504500, N 35367742510235445000,
  P 22080648802315684000, P 15794407205124910000, N 34496845216046050000, P 16057407578320310000,
  P 18207388779702623000, N 33429670362166360000, P 15574891202332186000, P 17166433754219338000,
  N 33155160180033776000, P 17166433754219338000, P 15574891202332186000, N 33429670362166360000,
  P 18207388779702623000, P 16057407578320310000, N 34496845216046050000, P 15794407205124910000,
  P 22080648802315684000, N 35367742510235445000, P 3361715377185504500, P 36427627581107305000,
  N 23344498615084593000, N 33527693977816910000, P 30661955327869358000, P 54290001613784290000,
  P 25434082855374122000]
/-- `freud/order/Wigner3j.cc`, `case 18`, the values with `m1 = 5`. -/
noncomputable def row18_23 : List Int := [
  N 36081453664199105000, N 55558031399130080000, N 5891591825620426000, P 43405647077271720000,
  N 5026352155495699000, N 35911826403964060000, P 25393803691065763000, P 15395638021716078000,
  N 35707627184336150000, P 15794407205124910000, P 19789557383405530000, N 33977161626420460000,
  P 14197110982159655000, P 18877328763231643000, N 33429670362166360000, P 16228539313173543000,
  P 16228539313173543000, N 33429670362166360000, P 18877328763231643000, P 14197110982159655000,
  N 33977161626420460000, P 19789557383405530000, P 15794407205124910000, N 35707627184336150000,
  P 15395638021716078000, P 25393803691065763000, N 35911826403964060000, N 5026352155495699000,
  P 43405647077271720000, N 5891591825620426000, N 55558031399130080000, N 36081453664199105000]
/-- `freud/order/Wigner3j.cc`, `case 18`, the values with `m1 = 6`. -/
noncomputable def row18_24 : List Int := [
  P 46730975954385790000, P 48371155590866000000, N 19737711376807900000, N 35740035642216395000,
  P 30392809958491737000, P 14776146418067274000, N 37531449433359080000, P 15395638021716078000,
  P 22080648802315684000, N 34653070555603980000, P 11994061343288380000, P 21547612907409080000,
  N 33741330019277570000, P 14197110982159655000, P 18207388779702623000, N 33682302293633570000,
  P 18207388779702623000, P 14197110982159655000, N 33741330019277570000, P 21547612907409080000,
  P 11994061343288380000, N 34653070555603980000, P 22080648802315684000, P 15395638021716078000,
  N 37531449433359080000, P 14776146418067274000, P 30392809958491737000, N 35740035642216395000,
  N 19737711376807900000, P 48371155590866000000, P 46730975954385790000]
/-- `freud/order/Wigner3j.cc`, `case 18`, the values with `m1 = 7`. -/
noncomputable def row18_25 : List Int := [
  N 55854199402799510000, N 33003070577177620000, P 38929754140864680000, P 13745665494121932000,
  N 40466143530873036000, P 14776146418067274000, P 25393803691065763000, N 35367742510235445000,
  P 8601683939533786000, P 25294797069790202000, N 33807481894770560000, P 10734775103588909000,
  P 21547612907409080000, N 33977161626420460000, P 16057407578320310000, P 16057407578320310000,
  N 33977161626420460000, P 21547612907409080000, P 10734775103588909000, N 33807481894770560000,
  P 25294797069790202000, P 8601683939533786000, N 35367742510235445000, P 25393803691065763000,
  P 14776146418067274000, N 40466143530873036000, P 13745665494121932000, P 38929754140864680000,
  N 33003070577177620000, N 55854199402799510000]
/-- `freud/order/Wigner3j.cc`, `case 18`, the values with `m1 = 8`. -/
noncomputable def row18_26 : List Int := [
  P 62014729722938680000, P 11719682319270088000, N 46033998299049260000, P 13745665494121932000,
  P 30392809958491737000, N 35911826403964060000, P 3361715377185504500, P 30243855258668230000,
  N 33067012650736600000, P 5268628994424059000, P 26234663917858666000, N 33807481894770560000,
  P 11994061343288380000, P 19789557383405530000, N 34496845216046050000, P 19789557383405530000,
  P 11994061343288380000, N 33807481894770560000, P 26234663917858666000, P 5268628994424059000,
  N 33067012650736600000, P 30243855258668230000, P 3361715377185504500, N 35911826403964060000,
  P 30392809958491737000, P 13745665494121932000, N 46033998299049260000, P 11719682319270088000,
  P 62014729722938680000]
/-- `freud/order/Wigner3j.cc`, `case 18`, the values with `m1 = 9`. -/
noncomputable def row18_27 : List Int := [
  N 64191343730586900000, P 11719682319270088000, P 38929754140864680000, N 35740035642216395000,
  N 5026352155495699000, P 36427627581107305000, N 30389089420120526000, N 3086556149769939400,
  P 32016738327393095000, N 32164310214993270000, P 5268628994424059000, P 25294797069790202000,
  N 34653070555603980000, P 15794407205124910000, P 15794407205124910000, N 34653070555603980000,
  P 25294797069790202000, P 5268628994424059000, N 32164310214993270000, P 32016738327393095000,
  N 3086556149769939400, N 30389089420120526000, P 36427627581107305000, N 5026352155495699000,
  N 35740035642216395000, P 38929754140864680000, P 11719682319270088000, N 64191343730586900000]
/-- `freud/order/Wigner3j.cc`, `case 18`, the values with `m1 = 10`. -/
noncomputable def row18_28 : List Int := [
  P 62014729722938680000, N 33003070577177620000, N 19737711376807900000, P 43405647077271720000,
  N 23344498615084593000, N 15577729793770681000, P 37907925294660534000, N 27134771655446530000,
  N 5134061186996236000, P 32016738327393095000, N 33067012650736600000, P 8601683939533786000,
  P 22080648802315684000, N 35707627184336150000, P 22080648802315684000, P 8601683939533786000,
  N 33067012650736600000, P 32016738327393095000, N 5134061186996236000, N 27134771655446530000,
  P 37907925294660534000, N 15577729793770681000, N 23344498615084593000, P 43405647077271720000,
  N 19737711376807900000, N 33003070577177620000, P 62014729722938680000]
/-- `freud/order/Wigner3j.cc`, `case 18`, the values with `m1 = 11`. -/
noncomputable def row18_29 : List Int := [
  N 55854199402799510000, P 48371155590866000000, N 5891591825620426000, N 33527693977816910000,
  P 40778414485773970000, N 15195480876658785000, N 20074613689540676000, P 38079495097981766000,
  N 27134771655446530000, N 3086556149769939400, P 30243855258668230000, N 35367742510235445000,
  P 15395638021716078000, P 15395638021716078000, N 35367742510235445000, P 30243855258668230000,
  N 3086556149769939400, N 27134771655446530000, P 38079495097981766000, N 20074613689540676000,
  N 15195480876658785000, P 40778414485773970000, N 33527693977816910000, N 5891591825620426000,
  P 48371155590866000000, N 55854199402799510000]
/-- `freud/order/Wigner3j.cc`, `case 18`, the values with `m1 = 12`. -/
noncomputable def row18_30 : List Int := [
  P 46730975954385790000, N 55558031399130080000, P 30661955327869358000, P 9699043537804111000,
  N 38317364546076470000, P 38227703390916495000, N 12461177687690712000, N 20074613689540676000,
  P 37907925294660534000, N 30389089420120526000, P 3361715377185504500, P 25393803691065763000,
  N 37531449433359080000, P 25393803691065763000, P 3361715377185504500, N 30389089420120526000,
  P 37907925294660534000, N 20074613689540676000, N 12461177687690712000, P 38227703390916495000,
  N 38317364546076470000, P 9699043537804111000, P 30661955327869358000, N 55558031399130080000,
  P 46730975954385790000]
/-- `freud/order/Wigner3j.cc`, `case 18`, the values with `m1 = 13`. -/
noncomputable def row18_31 : List Int := [
  N 36081453664199105000, P 54290001613784290000, N 48023822536890160000, P 19243518181438157000,
  P 16350481835597650000, N 39375217072262755000, P 38227703390916495000, N 15195480876658785000,
  N 15577729793770681000, P 36427627581107305000, N 35911826403964060000, P 14776146418067274000,
  P 14776146418067274000, N 35911826403964060000, P 36427627581107305000, N 15577729793770681000,
  N 15195480876658785000, P 38227703390916495000, N 39375217072262755000, P 16350481835597650000,
  P 19243518181438157000, N 48023822536890160000, P 54290001613784290000, N 36081453664199105000]
/-- `freud/order/Wigner3j.cc`, `case 18`, the values with `m1 = 14`. -/
noncomputable def row18_32 : List Int := [
  P 25434082855374122000, N 46203305977931040000, P 54228413390198830000, N 42903069836650250000,
  P 15470499488747022000, P 16350481835597650000, N 38317364546076470000, P 40778414485773970000,
  N 23344498615084593000, N 5026352155495699000, P 30392809958491737000, N 40466143530873036000,
  P 30392809958491737000, N 5026352155495699000, N 23344498615084593000, P 40778414485773970000,
  N 38317364546076470000, P 16350481835597650000, P 15470499488747022000, N 42903069836650250000,
  P 54228413390198830000, N 46203305977931040000, P 25434082855374122000]
/-- `freud/order/Wigner3j.cc`, `case 18`, the values with `m1 = 15`. -/
noncomputable def row18_33 : List Int := [
  N 16085926404084235000, P 34224809993309374000, N 49318181850982510000, P 53587573530298420000,
  N 42903069836650250000, P 19243518181438157000, P 9699043537804111000, N 33527693977816910000,
  P 43405647077271720000, N 35740035642216395000, P 13745665494121932000, P 13745665494121932000,
  N 35740035642216395000, P 43405647077271720000, N 33527693977816910000, P 9699043537804111000,
  P 19243518181438157000, N 42903069836650250000, P 53587573530298420000, N 49318181850982510000,
  P 34224809993309374000, N 16085926404084235000]
/-- `freud/order/Wigner3j.cc`, `case 18`, the values with `m1 = 16`. -/
noncomputable def row18_34 : List Int := [
  P 8862913783126458000, N 21629654376535128000, P 36719137340761000000, N 49318181850982510000,
  P 54228413390198830000, N 48023822536890160000, P 30661955327869358000, N 5891591825620426000,
  N 19737711376807900000, P 38929754140864680000, N 46033998299049260000, P 38929754140864680000,
  N 19737711376807900000, N 5891591825620426000, P 30661955327869358000, N 48023822536890160000,
  P 54228413390198830000, N 49318181850982510000, P 36719137340761000000, N 21629654376535128000,
  P 8862913783126458000]
/-- `freud/order/Wigner3j.cc`, `case 18`, the values with `m1 = 17`. -/
noncomputable def row18_35 : List Int := [
  N 4021481601021059000, P 11090297826270456000, N 21629654376535128000, P 34224809993309374000,
  N 46203305977931040000, P 54290001613784290000, N 55558031399130080000, P 48371155590866000000,
  N 33003070577177620000, P 11719682319270088000, P 11719682319270088000, N 33003070577177620000,
  P 48371155590866000000, N 55558031399130080000, P 54290001613784290000, N 46203305977931040000,
  P 34224809993309374000, N 21629654376535128000, P 11090297826270456000, N 4021481601021059000]
/-- `freud/order/Wigner3j.cc`, `case 18`, the values with `m1 = 18`. -/
noncomputable def row18_36 : List Int := [
  P 1304740920737700700, N 4021481601021059000, P 8862913783126458000, N 16085926404084235000,
  P 25434082855374122000, N 36081453664199105000, P 46730975954385790000, N 55854199402799510000,
  P 62014729722938680000, N 64191343730586900000, P 62014729722938680000, N 55854199402799510000,
  P 46730975954385790000, N 36081453664199105000, P 25434082855374122000, N 16085926404084235000,
  P 8862913783126458000, N 4021481601021059000, P 1304740920737700700]
/-- `case 18` of `getWigner3j`, times `10 ^ 21`; the rows above are its parts with `m1 = -18, ..., 18`. -/
noncomputable def table18 : List (List Int) := [
  row18_0, row18_1, row18_2, row18_3, row18_4, row18_5,
  row18_6, row18_7, row18_8, row18_9, row18_10, row18_11,
  row18_12, row18_13, row18_14, row18_15, row18_16, row18_17,
  row18_18, row18_19, row18_20, row18_21, row18_22, row18_23,
  row18_24, row18_25, row18_26, row18_27, row18_28, row18_29,
  row18_30, row18_31, row18_32, row18_33, row18_34, row18_35,
  row18_36]

/-- `freud/order/Wigner3j.cc`, `case 19`, the values with `m1 = -19`. -/
noncomputable def row19_0 : List Int := [
  P 978109248771495200, N 3093053026594175000, P 6990647531748283000, N 13008922575277776000,
  P 21091196622829970000, N 30692199334093572000, P 40806508504153230000, N 50126084066886180000,
  P 57294171382650930000, N 61193306306744036000, P 61193306306744036000, N 57294171382650930000,
  P 50126084066886180000, N 40806508504153230000, P 30692199334093572000, N 21091196622829970000,
  P 13008922575277776000, N 6990647531748283000, P 3093053026594175000, N 978109248771495200]
/-- `freud/order/Wigner3j.cc`, `case 19`, the values with `m1 = -18`. -/
noncomputable def row19_1 : List Int := [
  N 3093053026594175000, P 8802983238943456000, N 17731819057911682000, P 29026546394551208000,
  N 40664960967395700000, P 49858425816548785000, N 53783270125041510000, P 50421815742226420000,
  N 39242776928857530000, P 21494154143078578000, P 0, N 21494154143078578000,
  P 39242776928857530000, N 50421815742226420000, P 53783270125041510000, N 49858425816548785000,
  P 40664960967395700000, N 29026546394551208000, P 17731819057911682000, N 8802983238943456000,
  P 3093053026594175000]
/-- `freud/order/Wigner3j.cc`, `case 19`, the values with `m1 = -17`. -/
noncomputable def row19_2 : List Int := [
  P 6990647531748283000, N 17731819057911682000, P 31378802115993640000, N 44181785825137850000,
  P 51494935958408344000, N 49549883898928090000, P 37070856206204600000, N 16083037149206130000,
  N 8436541335740130000, P 29983735991142780000, N 42550385407258630000, P 42550385407258630000,
  N 29983735991142780000, P 8436541335740130000, P 16083037149206130000, N 37070856206204600000,
  P 49549883898928090000, N 51494935958408344000, P 44181785825137850000, N 31378802115993640000,
  P 17731819057911682000, N 6990647531748283000]
/-- `freud/order/Wigner3j.cc`, `case 19`, the values with `m1 = -16`. -/
noncomputable def row19_3 : List Int := [
  N 13008922575277776000, P 29026546394551208000, N 44181785825137850000, P 51496130178564120000,
  N 46035027743741574000, P 27600934800827343000, N 1338841994701146900, N 24024660654037577000,
  P 39558997205674980000, N 39704162396234255000, P 24566476469003094000, P 0,
  N 24566476469003094000, P 39704162396234255000, N 39558997205674980000, P 24024660654037577000,
  P 1338841994701146900, N 27600934800827343000, P 46035027743741574000, N 51496130178564120000,
  P 44181785825137850000, N 29026546394551208000, P 13008922575277776000]
/-- `freud/order/Wigner3j.cc`, `case 19`, the values with `m1 = -15`. -/
noncomputable def row19_4 : List Int := [
  P 21091196622829970000, N 40664960967395700000, P 51494935958408344000, N 46035027743741574000,
  P 24346989678879650000, P 5375166079517332000, N 30635794318338980000, P 40644385251251600000,
  N 31459892197167220000, P 7841020770864357000, P 18972728173296805000, N 36437973124538390000,
  P 36437973124538390000, N 18972728173296805000, N 7841020770864357000, P 31459892197167220000,
  N 40644385251251600000, P 30635794318338980000, N 5375166079517332000, N 24346989678879650000,
  P 46035027743741574000, N 51494935958408344000, P 40664960967395700000, N 21091196622829970000]
/-- `freud/order/Wigner3j.cc`, `case 19`, the values with `m1 = -14`. -/
noncomputable def row19_5 : List Int := [
  N 30692199334093572000, P 49858425816548785000, N 49549883898928090000, P 27600934800827343000,
  P 5375166079517332000, N 32383346749867065000, P 39881613869868950000, N 25118902367438783000,
  N 2804257780023240000, P 28237033198918570000, N 37464323427420050000, P 25841654858101932000,
  P 0, N 25841654858101932000, P 37464323427420050000, N 28237033198918570000,
  P 2804257780023240000, P 25118902367438783000, N 39881613869868950000, P 32383346749867065000,
  N 5375166079517332000, N 27600934800827343000, P 49549883898928090000, N 49858425816548785000,
  P 30692199334093572000]
/-- `freud/order/Wigner3j.cc`, `case 19`, the values with `m1 = -13`. -/
noncomputable def row19_6 : List Int := [
  P 40806508504153230000, N 53783270125041510000, P 37070856206204600000, N 1338841994701146900,
  N 30635794318338980000, P 39881613869868950000, N 22866608113171440000, N 7712611381153141000,
  P 31966223431724000000, N 35220869097264570000, P 16343697571911480000, P 12368705514061258000,
  N 33056755965370630000, P 33056755965370630000, N 12368705514061258000, N 16343697571911480000,
  P 35220869097264570000, N 31966223431724000000, P 7712611381153141000, P 22866608113171440000,
  N 39881613869868950000, P 30635794318338980000, P 1338841994701146900, N 37070856206204600000,
  P 53783270125041510000, N 40806508504153230000]
/-- `freud/order/Wigner3j.cc`, `case 19`, the values with `m1 = -12`. -/
noncomputable def row19_7 : List Int := [
  N 50126084066886180000, P 50421815742226420000, N 16083037149206130000, N 24024660654037577000,
  P 40644385251251600000, N 25118902367438783000, N 7712611381153141000, P 32912054451905720000,
  N 33410066604699445000, P 10415206791433478000, P 19126771796468624000, N 34844880302309790000,
  P 26445404772296507000, P 0, N 26445404772296507000, P 34844880302309790000,
  N 19126771796468624000, N 10415206791433478000, P 33410066604699445000, N 32912054451905720000,
  P 7712611381153141000, P 25118902367438783000, N 40644385251251600000, P 24024660654037577000,
  P 16083037149206130000, N 50421815742226420000, P 50126084066886180000]
/-- `freud/order/Wigner3j.cc`, `case 19`, the values with `m1 = -11`. -/
noncomputable def row19_8 : List Int := [
  P 57294171382650930000, N 39242776928857530000, N 8436541335740130000, P 39558997205674980000,
  N 31459892197167220000, N 2804257780023240000, P 31966223431724000000, N 33410066604699445000,
  P 8444400031351116000, P 22002051290244063000, N 34750964925543824000, P 21130739524545420000,
  P 7965547602659603000, N 30873276923766086000, P 30873276923766086000, N 7965547602659603000,
  N 21130739524545420000, P 34750964925543824000, N 22002051290244063000, N 8444400031351116000,
  P 33410066604699445000, N 31966223431724000000, P 2804257780023240000, P 31459892197167220000,
  N 39558997205674980000, P 8436541335740130000, P 39242776928857530000, N 57294171382650930000]
/-- `freud/order/Wigner3j.cc`, `case 19`, the values with `m1 = -10`. -/
noncomputable def row19_9 : List Int := [
  N 61193306306744036000, P 21494154143078578000, P 29983735991142780000, N 39704162396234255000,
  P 7841020770864357000, P 28237033198918570000, N 35220869097264570000, P 10415206791433478000,
  P 22002051290244063000, N 34546358179255820000, P 18315510393441824000, P 12246340338193544000,
  N 32447023972833220000, P 26737042114053314000, P 0, N 26737042114053314000,
  P 32447023972833220000, N 12246340338193544000, N 18315510393441824000, P 34546358179255820000,
  N 22002051290244063000, N 10415206791433478000, P 35220869097264570000, N 28237033198918570000,
  N 7841020770864357000, P 39704162396234255000, N 29983735991142780000, N 21494154143078578000,
  P 61193306306744036000]
/-- `freud/order/Wigner3j.cc`, `case 19`, the values with `m1 = -9`. -/
noncomputable def row19_10 : List Int := [
  P 61193306306744036000, P 0, N 42550385407258630000, P 24566476469003094000,
  P 18972728173296805000, N 37464323427420050000, P 16343697571911480000, P 19126771796468624000,
  N 34750964925543824000, P 18315510393441824000, P 13580539530349125000, N 32856848718115290000,
  P 23903471607724002000, P 4910680764034571500, N 29373005279480400000, P 29373005279480400000,
  N 4910680764034571500, N 23903471607724002000, P 32856848718115290000, N 13580539530349125000,
  N 18315510393441824000, P 34750964925543824000, N 19126771796468624000, N 16343697571911480000,
  P 37464323427420050000, N 18972728173296805000, N 24566476469003094000, P 42550385407258630000,
  P 0, N 61193306306744036000]
/-- `freud/order/Wigner3j.cc`, `case 19`, the values with `m1 = -8`. -/
noncomputable def row19_11 : List Int := [
  N 57294171382650930000, N 21494154143078578000, P 42550385407258630000, P 0,
  N 36437973124538390000, P 25841654858101932000, P 12368705514061258000, N 34844880302309790000,
  P 21130739524545420000, P 12246340338193544000, N 32856848718115290000, P 22915215111584670000,
  P 7218643147079756000, N 30451862889781918000, P 26871990188271102000, P 0,
  N 26871990188271102000, P 30451862889781918000, N 7218643147079756000, N 22915215111584670000,
  P 32856848718115290000, N 12246340338193544000, N 21130739524545420000, P 34844880302309790000,
  N 12368705514061258000, N 25841654858101932000, P 36437973124538390000, P 0,
  N 42550385407258630000, P 21494154143078578000, P 57294171382650930000]
/-- `freud/order/Wigner3j.cc`, `case 19`, the values with `m1 = -7`. -/
noncomputable def row19_12 : List Int := [
  P 50126084066886180000, P 39242776928857530000, N 29983735991142780000, N 24566476469003094000,
  P 36437973124538390000, P 0, N 33056755965370630000, P 26445404772296507000,
  P 7965547602659603000, N 32447023972833220000, P 23903471607724002000, P 7218643147079756000,
  N 30732840689712552000, P 25518818999417985000, P 2779035066404384600, N 28325564752211194000,
  P 28325564752211194000, N 2779035066404384600, N 25518818999417985000, P 30732840689712552000,
  N 7218643147079756000, N 23903471607724002000, P 32447023972833220000, N 7965547602659603000,
  N 26445404772296507000, P 33056755965370630000, P 0, N 36437973124538390000,
  P 24566476469003094000, P 29983735991142780000, N 39242776928857530000, N 50126084066886180000]
/-- `freud/order/Wigner3j.cc`, `case 19`, the values with `m1 = -6`. -/
noncomputable def row19_13 : List Int := [
  N 40806508504153230000, N 50421815742226420000, P 8436541335740130000, P 39704162396234255000,
  N 18972728173296805000, N 25841654858101932000, P 33056755965370630000, P 0,
  N 30873276923766086000, P 26737042114053314000, P 4910680764034571500, N 30451862889781918000,
  P 25518818999417985000, P 3674944906347653000, N 28906743059604210000, P 26927815721455334000,
  P 0, N 26927815721455334000, P 28906743059604210000, N 3674944906347653000,
  N 25518818999417985000, P 30451862889781918000, N 4910680764034571500, N 26737042114053314000,
  P 30873276923766086000, P 0, N 33056755965370630000, P 25841654858101932000,
  P 18972728173296805000, N 39704162396234255000, N 8436541335740130000, P 50421815742226420000,
  P 40806508504153230000]
/-- `freud/order/Wigner3j.cc`, `case 19`, the values with `m1 = -5`. -/
noncomputable def row19_14 : List Int := [
  P 30692199334093572000, P 53783270125041510000, P 16083037149206130000, N 39558997205674980000,
  N 7841020770864357000, P 37464323427420050000, N 12368705514061258000, N 26445404772296507000,
  P 30873276923766086000, P 0, N 29373005279480400000, P 26871990188271102000,
  P 2779035066404384600, N 28906743059604210000, P 26445191777050760000, P 1332581284754646300,
  N 27611564425412446000, P 27611564425412446000, N 1332581284754646300, N 26445191777050760000,
  P 28906743059604210000, N 2779035066404384600, N 26871990188271102000, P 29373005279480400000,
  P 0, N 30873276923766086000, P 26445404772296507000, P 12368705514061258000,
  N 37464323427420050000, P 7841020770864357000, P 39558997205674980000, N 16083037149206130000,
  N 53783270125041510000, N 30692199334093572000]
/-- `freud/order/Wigner3j.cc`, `case 19`, the values with `m1 = -4`. -/
noncomputable def row19_15 : List Int := [
  N 21091196622829970000, N 49858425816548785000, N 37070856206204600000, P 24024660654037577000,
  P 31459892197167220000, N 28237033198918570000, N 16343697571911480000, P 34844880302309790000,
  N 7965547602659603000, N 26737042114053314000, P 29373005279480400000, P 0,
  N 28325564752211194000, P 26927815721455334000, P 1332581284754646300, N 27814288899023414000,
  P 26946127736983130000, P 0, N 26946127736983130000, P 27814288899023414000,
  N 1332581284754646300, N 26927815721455334000, P 28325564752211194000, P 0,
  N 29373005279480400000, P 26737042114053314000, P 7965547602659603000, N 34844880302309790000,
  P 16343697571911480000, P 28237033198918570000, N 31459892197167220000, N 24024660654037577000,
  P 37070856206204600000, P 49858425816548785000, P 21091196622829970000]
/-- `freud/order/Wigner3j.cc`, `case 19`, the values with `m1 = -3`. -/
noncomputable def row19_16 : List Int := [
  P 13008922575277776000, P 40664960967395700000, P 49549883898928090000, P 1338841994701146900,
  N 40644385251251600000, P 2804257780023240000, P 35220869097264570000, N 19126771796468624000,
  N 21130739524545420000, P 32447023972833220000, N 4910680764034571500, N 26871990188271102000,
  P 28325564752211194000, P 0, N 27611564425412446000, P 26946127736983130000,
  P 432346459570312150, N 27164909090362650000, P 27164909090362650000, N 432346459570312150,
  N 26946127736983130000, P 27611564425412446000, P 0, N 28325564752211194000,
  P 26871990188271102000, P 4910680764034571500, N 32447023972833220000, P 21130739524545420000,
  P 19126771796468624000, N 35220869097264570000, N 2804257780023240000, P 40644385251251600000,
  N 1338841994701146900, N 49549883898928090000, N 40664960967395700000, N 13008922575277776000]
/-- `freud/order/Wigner3j.cc`, `case 19`, the values with `m1 = -2`. -/
noncomputable def row19_17 : List Int := [
  N 6990647531748283000, N 29026546394551208000, N 51494935958408344000, N 27600934800827343000,
  P 30635794318338980000, P 25118902367438783000, N 31966223431724000000, N 10415206791433478000,
  P 34750964925543824000, N 12246340338193544000, N 23903471607724002000, P 30451862889781918000,
  N 2779035066404384600, N 26927815721455334000, P 27611564425412446000, P 0,
  N 27164909090362650000, P 26949595979882790000, P 0, N 26949595979882790000,
  P 27164909090362650000, P 0, N 27611564425412446000, P 26927815721455334000,
  P 2779035066404384600, N 30451862889781918000, P 23903471607724002000, P 12246340338193544000,
  N 34750964925543824000, P 10415206791433478000, P 31966223431724000000, N 25118902367438783000,
  N 30635794318338980000, P 27600934800827343000, P 51494935958408344000, P 29026546394551208000,
  P 6990647531748283000]
/-- `freud/order/Wigner3j.cc`, `case 19`, the values with `m1 = -1`. -/
noncomputable def row19_18 : List Int := [
  P 3093053026594175000, P 17731819057911682000, P 44181785825137850000, P 46035027743741574000,
  N 5375166079517332000, N 39881613869868950000, P 7712611381153141000, P 33410066604699445000,
  N 22002051290244063000, N 18315510393441824000, P 32856848718115290000, N 7218643147079756000,
  N 25518818999417985000, P 28906743059604210000, N 1332581284754646300, N 26946127736983130000,
  P 27164909090362650000, P 0, N 26949595979882790000, P 26949595979882790000,
  P 0, N 27164909090362650000, P 26946127736983130000, P 1332581284754646300,
  N 28906743059604210000, P 25518818999417985000, P 7218643147079756000, N 32856848718115290000,
  P 18315510393441824000, P 22002051290244063000, N 33410066604699445000, N 7712611381153141000,
  P 39881613869868950000, P 5375166079517332000, N 46035027743741574000, N 44181785825137850000,
  N 17731819057911682000, N 3093053026594175000]
/-- `freud/order/Wigner3j.cc`, `case 19`, the values with `m1 = 0`. -/
noncomputable def row19_19 : List Int := [
  N 978109248771495200, N 8802983238943456000, N 31378802115993640000, N 51496130178564120000,
  N 24346989678879650000, P 32383346749867065000, P 22866608113171440000, N 32912054451905720000,
  N 8444400031351116000, P 34546358179255820000, N 13580539530349125000, N 22915215111584670000,
  P 30732840689712552000, N 3674944906347653000, N 26445191777050760000, P 27814288899023414000,
  N 432346459570312150, N 26949595979882790000, P 26949595979882790000, P 0,
  N 26949595979882790000, P 26949595979882790000, P 432346459570312150, N 27814288899023414000,
  P 26445191777050760000, P 3674944906347653000, N 30732840689712552000, P 22915215111584670000,
  P 13580539530349125000, N 34546358179255820000, P 8444400031351116000, P 32912054451905720000,
  N 22866608113171440000, N 32383346749867065000, P 24346989678879650000, P 51496130178564120000,
  P 31378802115993640000, P 8802983238943456000, P 978109248771495200]
/-- `freud/order/Wigner3j.cc`, `case 19`, the values with `m1 = 1`. -/
noncomputable def row19_20 : List Int := [
  P 3093053026594175000, P 17731819057911682000, P 44181785825137850000, P 46035027743741574000,
  N 5375166079517332000, N 39881613869868950000, P 7712611381153141000, P 33410066604699445000,
  N 22002051290244063000, N 18315510393441824000, P 32856848718115290000, N 7218643147079756000,
  N 25518818999417985000, P 28906743059604210000, N 1332581284754646300, N 26946127736983130000,
  P 27164909090362650000, P 0, N 26949595979882790000, P 26949595979882790000,
  P 0, N 27164909090362650000, P 26946127736983130000, P 1332581284754646300,
  N 28906743059604210000, P 25518818999417985000, P 7218643147079756000, N 32856848718115290000,
  P 18315510393441824000, P 22002051290244063000, N 33410066604699445000, N 7712611381153141000,
  P 39881613869868950000, P 5375166079517332000, N 46035027743741574000, N 44181785825137850000,
  N 17731819057911682000, N 3093053026594175000]
/-- `freud/order/Wigner3j.cc`, `case 19`, the values with `m1 = 2`. -/
noncomputable def row19_21 : List Int := [
  N 6990647531748283000, N 29026546394551208000, N 51494935958408344000, N 27600934800827343000,
  P 30635794318338980000, P 25118902367438783000, N 31966223431724000000, N 10415206791433478000,
  P 34750964925543824000, N 12246340338193544000, N 23903471607724002000, P 30451862889781918000,
  N 2779035066404384600, N 26927815721455334000, P 27611564425412446000, P 0,
  N 27164909090362650000, P 26949595979882790000, P 0, N 26949595979882790000,
  P 27164909090362650000, P 0, N 27611564425412446000, P 26927815721455334000,
  P 2779035066404384600, N 30451862889781918000, P 23903471607724002000, P 12246340338193544000,
  N 34750964925543824000, P 10415206791433478000, P 31966223431724000000, N 25118902367438783000,
  N 30635794318338980000, P 27600934800827343000, P 51494935958408344000, P 29026546394551208000,
  P 6990647531748283000]
/-- `freud/order/Wigner3j.cc`, `case 19`, the values with `m1 = 3`. -/
noncomputable def row19_22 : List Int := [
  P 13008922575277776000, P 40664960967395700000, P 49549883898928090000, P 1338841994701146900,
  N 40644385251251600000, P 2804257780023240000, P 35220869097264570000, N 19126771796468624000,
  N 21130739524545420000, P 32447023972833220000, N 4910680764034571500, N 26871990188271102000,
  P 28325564752211194000, P 0, N 27611564425412446000, P 26946127736983130000,
  P 432346459570312150, N 27164909090362650000, P 27164909090362650000, N 432346459570312150,
  N 26946127736983130000, P 27611564425412446000, P 0, N 28325564752211194000,
  P 26871990188271102000, P 4910680764034571500, N 32447023972833220000, P 21130739524545420000,
  P 19126771796468624000, N 35220869097264570000, N 2804257780023240000, P 40644385251251600000,
  N 1338841994701146900, N 49549883898928090000, N 40664960967395700000, N 13008922575277776000]
/-- `freud/order/Wigner3j.cc`, `case 19`, the values with `m1 = 4`. -/
noncomputable def row19_23 : List Int := [
  N 21091196622829970000, N 49858425816548785000, N 37070856206204600000, P 24024660654037577000,
  P 31459892197167220000, N 28237033198918570000, N 16343697571911480000, P 34844880302309790000,
  N 7965547602659603000, N 26737042114053314000, P 29373005279480400000, P 0,
  N 28325564752211194000, P 26927815721455334000, P 1332581284754646300, N 27814288899023414000,
  P 26946127736983130000, P 0, N 26946127736983130000, P 27814288899023414000,
  N 1332581284754646300, N 26927815721455334000, P 28325564752211194000, P 0,
  N 29373005279480400000, P 26737042114053314000, P 7965547602659603000, N 34844880302309790000,
  P 16343697571911480000, P 28237033198918570000, N 31459892197167220000, N 24024660654037577000,
  P 37070856206204600000, P 49858425816548785000, P 21091196622829970000]
/-- `freud/order/Wigner3j.cc`, `case 19`, the values with `m1 = 5`. -/
noncomputable def row19_24 : List Int := [
  P 30692199334093572000, P 53783270125041510000, P 16083037149206130000, N 39558997205674980000,
  N 7841020770864357000, P 37464323427420050000, N 12368705514061258000, N 26445404772296507000,
  P 30873276923766086000, P 0, N 29373005279480400000, P 26871990188271102000,
  P 2779035066404384600, N 28906743059604210000, P 26445191777050760000, P 1332581284754646300,
  N 27611564425412446000, P 27611564425412446000, N 1332581284754646300, N 26445191777050760000,
  P 28906743059604210000, N 2779035066404384600, N 26871990188271102000, P 29373005279480400000,
  P 0, N 30873276923766086000, P 26445404772296507000, P 12368705514061258000,
  N 37464323427420050000, P 7841020770864357000, P 39558997205674980000, N 16083037149206130000,
  N 53783270125041510000, N 30692199334093572000]
/-- `freud/order/Wigner3j.cc`, `case 19`, the values with `m1 = 6`. -/
noncomputable def row19_25 : List Int := [
  N 40806508504153230000, N 50421815742226420000, P 8436541335740130000, P 39704162396234255000,
  N 18972728173296805000, N 25841654858101932000, P 33056755965370630000, P 0,
  N 30873276923766086000, P 26737042114053314000, P 4910680764034571500, N 30451862889781918000,
  P 25518818999417985000, P 3674944906347653000, N 28906743059604210000, P 26927815721455334000,
  P 0, N 26927815721455334000, P 28906743059604210000, N 3674944906347653000,
  N 25518818999417985000, P 30451862889781918000, N 4910680764034571500, N 26737042114053314000,
  P 30873276923766086000, P 0, N 33056755965370630000, P 25841654858101932000,
  P 18972728173296805000, N 39704162396234255000, N 8436541335740130000, P 50421815742226420000,
  P 40806508504153230000]
/-- `freud/order/Wigner3j.cc`, `case 19`, the values with `m1 = 7`. -/
noncomputable def row19_26 : List Int := [
  P 50126084066886180000, P 39242776928857530000, N 29983735991142780000, N 24566476469003094000,
  P 36437973124538390000, P 0, N 33056755965370630000, P 26445404772296507000,
  P 7965547602659603000, N 32447023972833220000, P 23903471607724002000, P 7218643147079756000,
  N 30732840689712552000, P 25518818999417985000, P 2779035066404384600, N 28325564752211194000,
  P 28325564752211194000, N 2779035066404384600, N 25518818999417985000, P 30732840689712552000,
  N 7218643147079756000, N 23903471607724002000, P 32447023972833220000, N 7965547602659603000,
  N 26445404772296507000, P 33056755965370630000, P 0, N 36437973124538390000,
  P 24566476469003094000, P 29983735991142780000, N 39242776928857530000, N 50126084066886180000]
/-- `freud/order/Wigner3j.cc`, `case 19`, the values with `m1 = 8`. -/
noncomputable def row19_27 : List Int := [
  N 57294171382650930000, N 21494154143078578000, P 42550385407258630000, P 0,
  N 36437973124538390000, P 25841654858101932000, P 12368705514061258000, N 34844880302309790000,
  P 21130739524545420000, P 12246340338193544000, N 32856848718115290000, P 22915215111584670000,
  P 7218643147079756000, N 30451862889781918000, P 26871990188271102000, P 0,
  N 26871990188271102000, P 30451862889781918000, N 7218643147079756000, N 22915215111584670000,
  P 32856848718115290000, N 12246340338193544000, N 21130739524545420000, P 34844880302309790000,
  N 12368705514061258000, N 25841654858101932000, P 36437973124538390000, P 0,
  N 42550385407258630000, P 21494154143078578000, P 57294171382650930000]
/-- `freud/order/Wigner3j.cc`, `case 19`, the values with `m1 = 9`. -/
noncomputable def row19_28 : List Int := [
  P 61193306306744036000, P 0, N 42550385407258630000, P 24566476469003094000,
  P 18972728173296805000, N 37464323427420050000, P 16343697571911480000, P 19126771796468624000,
  N 34750964925543824000, P 18315510393441824000, P 13580539530349125000, N 32856848718115290000,
  P 23903471607724002000, P 4910680764034571500, N 29373005279480400000, P 29373005279480400000,
  N 4910680764034571500, N 23903471607724002000, P 32856848718115290000, N 13580539530349125000,
  N 18315510393441824000, P 34750964925543824000, N 19126771796468624000, N 16343697571911480000,
  P 37464323427420050000, N 18972728173296805000, N 24566476469003094000, P 42550385407258630000,
  P 0, N 61193306306744036000]
/-- `freud/order/Wigner3j.cc`, `case 19`, the values with `m1 = 10`. -/
noncomputable def row19_29 : List Int := [
  N 61193306306744036000, P 21494154143078578000, P 29983735991142780000, N 39704162396234255000,
  P 7841020770864357000, P 28237033198918570000, N 35220869097264570000, P 10415206791433478000,
  P 22002051290244063000, N 34546358179255820000, P 18315510393441824000, P 12246340338193544000,
  N 32447023972833220000, P 26737042114053314000, P 0, N 26737042114053314000,
  P 32447023972833220000, N 12246340338193544000, N 18315510393441824000, P 34546358179255820000,
  N 22002051290244063000, N 10415206791433478000, P 35220869097264570000, N 28237033198918570000,
  N 7841020770864357000, P 39704162396234255000, N 29983735991142780000, N 21494154143078578000,
  P 61193306306744036000]
/-- `freud/order/Wigner3j.cc`, `case 19`, the values with `m1 = 11`. -/
noncomputable def row19_30 : List Int := [
  P 57294171382650930000, N 39242776928857530000, N 8436541335740130000, P 39558997205674980000,
  N 31459892197167220000, N 2804257780023240000, P 31966223431724000000, N 33410066604699445000,
  P 8444400031351116000, P 22002051290244063000, N 34750964925543824000, P 21130739524545420000,
  P 7965547602659603000, N 30873276923766086000, P 30873276923766086000, N 7965547602659603000,
  N 21130739524545420000, P 34750964925543824000, N 22002051290244063000, N 8444400031351116000,
  P 33410066604699445000, N 31966223431724000000, P 2804257780023240000, P 31459892197167220000,
  N 39558997205674980000, P 8436541335740130000, P 39242776928857530000, N 57294171382650930000]
/-- `freud/order/Wigner3j.cc`, `case 19`, the values with `m1 = 12`. -/
noncomputable def row19_31 : List Int := [
  N 50126084066886180000, P 50421815742226420000, N 16083037149206130000, N 24024660654037577000,
  P 40644385251251600000, N 25118902367438783000, N 7712611381153141000, P 32912054451905720000,
  N 33410066604699445000, P 10415206791433478000, P 19126771796468624000, N 34844880302309790000,
  P 26445404772296507000, P 0, N 26445404772296507000, P 34844880302309790000,
  N 19126771796468624000, N 10415206791433478000, P 33410066604699445000, N 32912054451905720000,
  P 7712611381153141000, P 25118902367438783000, N 40644385251251600000, P 24024660654037577000,
  P 16083037149206130000, N 50421815742226420000, P 50126084066886180000]
/-- `freud/order/Wigner3j.cc`, `case 19`, the values with `m1 = 13`. -/
noncomputable def row19_32 : List Int := [
  P 40806508504153230000, N 53783270125041510000, P 37070856206204600000, N 1338841994701146900,
  N 30635794318338980000, P 39881613869868950000, N 22866608113171440000, N 7712611381153141000,
  P 31966223431724000000, N 35220869097264570000, P 16343697571911480000, P 12368705514061258000,
  N 33056755965370630000, P 33056755965370630000, N 12368705514061258000, N 16343697571911480000,
  P 35220869097264570000, N 31966223431724000000, P 7712611381153141000, P 22866608113171440000,
  N 39881613869868950000, P 30635794318338980000, P 1338841994701146900, N 37070856206204600000,
  P 53783270125041510000, N 40806508504153230000]
/-- `freud/order/Wigner3j.cc`, `case 19`, the values with `m1 = 14`. -/
noncomputable def row19_33 : List Int := [
  N 30692199334093572000, P 49858425816548785000, N 49549883898928090000, P 27600934800827343000,
  P 5375166079517332000, N 32383346749867065000, P 39881613869868950000, N 25118902367438783000,
  N 2804257780023240000, P 28237033198918570000, N 37464323427420050000, P 25841654858101932000,
  P 0, N 25841654858101932000, P 37464323427420050000, N 28237033198918570000,
  P 2804257780023240000, P 25118902367438783000, N 39881613869868950000, P 32383346749867065000,
  N 5375166079517332000, N 27600934800827343000, P 49549883898928090000, N 49858425816548785000,
  P 30692199334093572000]
/-- `freud/order/Wigner3j.cc`, `case 19`, the values with `m1 = 15`. -/
noncomputable def row19_34 : List Int := [
  P 21091196622829970000, N 40664960967395700000, P 51494935958408344000, N 46035027743741574000,
  P 24346989678879650000, P 5375166079517332000, N 30635794318338980000, P 40644385251251600000,
  N 31459892197167220000, P 7841020770864357000, P 18972728173296805000, N 36437973124538390000,
  P 36437973124538390000, N 18972728173296805000, N 7841020770864357000, P 31459892197167220000,
  N 40644385251251600000, P 30635794318338980000, N 5375166079517332000, N 24346989678879650000,
  P 46035027743741574000, N 51494935958408344000, P 40664960967395700000, N 21091196622829970000]
/-- `freud/order/Wigner3j.cc`, `case 19`, the values with `m1 = 16`. -/
noncomputable def row19_35 : List Int := [
  N 13008922575277776000, P 29026546394551208000, N 44181785825137850000, P 51496130178564120000,
  N 46035027743741574000, P 27600934800827343000, N 1338841994701146900, N 24024660654037577000,
  P 39558997205674980000, N 39704162396234255000, P 24566476469003094000, P 0,
  N 24566476469003094000, P 39704162396234255000, N 39558997205674980000, P 24024660654037577000,
  P 1338841994701146900, N 27600934800827343000, P 46035027743741574000, N 51496130178564120000,
  P 44181785825137850000, N 29026546394551208000, P 13008922575277776000]
/-- `freud/order/Wigner3j.cc`, `case 19`, the values with `m1 = 17`. -/
noncomputable def row19_36 : List Int := [
  P 6990647531748283000, N 17731819057911682000, P 31378802115993640000, N 44181785825137850000,
  P 51494935958408344000, N 49549883898928090000, P 37070856206204600000, N 16083037149206130000,
  N 8436541335740130000, P 29983735991142780000, N 42550385407258630000, P 42550385407258630000,
  N 29983735991142780000, P 8436541335740130000, P 16083037149206130000, N 37070856206204600000,
  P 49549883898928090000, N 51494935958408344000, P 44181785825137850000, N 31378802115993640000,
  P 17731819057911682000, N 6990647531748283000]
/-- `freud/order/Wigner3j.cc`, `case 19`, the values with `m1 = 18`. -/
noncomputable def row19_37 : List Int := [
  N 3093053026594175000, P 8802983238943456000, N 17731819057911682000, P 29026546394551208000,
  N 40664960967395700000, P 49858425816548785000, N 53783270125041510000, P 50421815742226420000,
  N 39242776928857530000, P 21494154143078578000, P 0, N 21494154143078578000,
  P 39242776928857530000, N 50421815742226420000, P 53783270125041510000, N 49858425816548785000,
  P 40664960967395700000, N 29026546394551208000, P 17731819057911682000, N 8802983238943456000,
  P 3093053026594175000]
/-- `freud/order/Wigner3j.cc`, `case 19`, the values with `m1 = 19`. -/
noncomputable def row19_38 : List Int := [
  P 978109248771495200, N 3093053026594175000, P 6990647531748283000, N 13008922575277776000,
  P 21091196622829970000, N 30692199334093572000, P 40806508504153230000, N 50126084066886180000,
  P 57294171382650930000, N 61193306306744036000, P 61193306306744036000, N 57294171382650930000,
  P 50126084066886180000, N 40806508504153230000, P 30692199334093572000, N 21091196622829970000,
  P 13008922575277776000, N 6990647531748283000, P 3093053026594175000, N 978109248771495200]
/-- `case 19` of `getWigner3j`, times `10 ^ 21`; the rows above are its parts with `m1 = -19, ..., 19`. -/
noncomputable def table19 : List (List Int) := [
  row19_0, row19_1, row19_2, row19_3, row19_4, row19_5,
  row19_6, row19_7, row19_8, row19_9, row19_10, row19_11,
  row19_12, row19_13, row19_14, row19_15, row19_16, row19_17,
  row19_18, row19_19, row19_20, row19_21, row19_22, row19_23,
  row19_24, row19_25, row19_26, row19_27, row19_28, row19_29,
  row19_30, row19_31, row19_32, row19_33, row19_34, row19_35,
  row19_36, row19_37, row19_38]

/-- `freud/order/Wigner3j.cc`, `case 20`, the values with `m1 = -20`. -/
noncomputable def row20_0 : List Int := [
  P 734227112568117200, N 2379167765147343200, P 5507644580631185000, N 10495754201812346000,
  P 17426608529437587000, N 25978054192733392000, P 35402120387117470000, N 44615595699398310000,
  P 52388434929035130000, N 57587576537500220000, P 59416207210648615000, N 57587576537500220000,
  P 52388434929035130000, N 44615595699398310000, P 35402120387117470000, N 25978054192733392000,
  P 17426608529437587000, N 10495754201812346000, P 5507644580631185000, N 2379167765147343200,
  P 734227112568117200]
/-- `freud/order/Wigner3j.cc`, `case 20`, the values with `m1 = -19`. -/
noncomputable def row20_1 : List Int := [
  N 2379167765147343200, P 6975157569397114000, N 14481938107885934000, P 24468353148246223000,
  N 35467138110187785000, P 45182401235578366000, N 51019885605371010000, P 50797090280632590000,
  N 43416492681398716000, P 29286025434036734000, N 10343034077007743000, N 10343034077007743000,
  P 29286025434036734000, N 43416492681398716000, P 50797090280632590000, N 51019885605371010000,
  P 45182401235578366000, N 35467138110187785000, P 24468353148246223000, N 14481938107885934000,
  P 6975157569397114000, N 2379167765147343200]
/-- `freud/order/Wigner3j.cc`, `case 20`, the values with `m1 = -18`. -/
noncomputable def row20_2 : List Int := [
  P 5507644580631185000, N 14481938107885934000, P 26629852582759020000, N 39135103492501140000,
  P 48006184232305564000, N 49457654564265555000, P 41400862074879670000, N 24464622414979025000,
  P 2123933043939392600, P 20161388171516914000, N 36537095208581060000, P 42548829742554480000,
  N 36537095208581060000, P 20161388171516914000, P 2123933043939392600, N 24464622414979025000,
  P 41400862074879670000, N 49457654564265555000, P 48006184232305564000, N 39135103492501140000,
  P 26629852582759020000, N 14481938107885934000, P 5507644580631185000]
/-- `freud/order/Wigner3j.cc`, `case 20`, the values with `m1 = -17`. -/
noncomputable def row20_3 : List Int := [
  N 10495754201812346000, P 24468353148246223000, N 39135103492501140000, P 48487228933825274000,
  N 47334079710196104000, P 33927245271150090000, N 11196594598243893000, N 13993429710596266000,
  P 33301127788507884000, N 40088357083357620000, P 32041113797173170000, N 12176442656288540000,
  N 12176442656288540000, P 32041113797173170000, N 40088357083357620000, P 33301127788507884000,
  N 13993429710596266000, N 11196594598243893000, P 33927245271150090000, N 47334079710196104000,
  P 48487228933825274000, N 39135103492501140000, P 24468353148246223000, N 10495754201812346000]
/-- `freud/order/Wigner3j.cc`, `case 20`, the values with `m1 = -16`. -/
noncomputable def row20_4 : List Int := [
  P 17426608529437587000, N 35467138110187785000, P 48006184232305564000, N 47334079710196104000,
  P 31251209304796390000, N 4816138116954908000, N 21687144131695292000, P 37432504658518510000,
  N 36057320405185680000, P 18621698533530052000, P 6812522305094141000, N 28748781148966444000,
  P 37342998549652290000, N 28748781148966444000, P 6812522305094141000, P 18621698533530052000,
  N 36057320405185680000, P 37432504658518510000, N 21687144131695292000, N 4816138116954908000,
  P 31251209304796390000, N 47334079710196104000, P 48006184232305564000, N 35467138110187785000,
  P 17426608529437587000]
/-- `freud/order/Wigner3j.cc`, `case 20`, the values with `m1 = -15`. -/
noncomputable def row20_5 : List Int := [
  N 25978054192733392000, P 45182401235578366000, N 49457654564265555000, P 33927245271150090000,
  N 4816138116954908000, N 23894436812027072000, P 38250714076793210000, N 31831607683290866000,
  P 8952915068337971000, P 17849714336153292000, N 34465661462600970000, P 32436743055838185000,
  N 13130000808752056000, N 13130000808752056000, P 32436743055838185000, N 34465661462600970000,
  P 17849714336153292000, P 8952915068337971000, N 31831607683290866000, P 38250714076793210000,
  N 23894436812027072000, N 4816138116954908000, P 33927245271150090000, N 49457654564265555000,
  P 45182401235578366000, N 25978054192733392000]
/-- `freud/order/Wigner3j.cc`, `case 20`, the values with `m1 = -14`. -/
noncomputable def row20_6 : List Int := [
  P 35402120387117470000, N 51019885605371010000, P 41400862074879670000, N 11196594598243893000,
  N 21687144131695292000, P 38250714076793210000, N 30200241805829343000, P 4188386075868270000,
  P 23119786308483888000, N 35364656657376630000, P 25879982590408900000, N 998836535756104300,
  N 24140094468019603000, P 34572898643045330000, N 24140094468019603000, N 998836535756104300,
  P 25879982590408900000, N 35364656657376630000, P 23119786308483888000, P 4188386075868270000,
  N 30200241805829343000, P 38250714076793210000, N 21687144131695292000, N 11196594598243893000,
  P 41400862074879670000, N 51019885605371010000, P 35402120387117470000]
/-- `freud/order/Wigner3j.cc`, `case 20`, the values with `m1 = -13`. -/
noncomputable def row20_7 : List Int := [
  N 44615595699398310000, P 50797090280632590000, N 24464622414979025000, N 13993429710596266000,
  P 37432504658518510000, N 31831607683290866000, P 4188386075868270000, P 24636296223062636000,
  N 35050862259149565000, P 21209778706462210000, P 6476139177256272000, N 29179311948653070000,
  P 32109531259110265000, N 13716660068143025000, N 13716660068143025000, P 32109531259110265000,
  N 29179311948653070000, P 6476139177256272000, P 21209778706462210000, N 35050862259149565000,
  P 24636296223062636000, P 4188386075868270000, N 31831607683290866000, P 37432504658518510000,
  N 13993429710596266000, N 24464622414979025000, P 50797090280632590000, N 44615595699398310000]
/-- `freud/order/Wigner3j.cc`, `case 20`, the values with `m1 = -12`. -/
noncomputable def row20_8 : List Int := [
  P 52388434929035130000, N 43416492681398716000, P 2123933043939392600, P 33301127788507884000,
  N 36057320405185680000, P 8952915068337971000, P 23119786308483888000, N 35050862259149565000,
  P 19573792649607000000, P 9921045374039305000, N 31093318553435970000, P 29034100795143280000,
  N 6022720117838283000, N 21031934071634412000, P 32826328257795995000, N 21031934071634412000,
  N 6022720117838283000, P 29034100795143280000, N 31093318553435970000, P 9921045374039305000,
  P 19573792649607000000, N 35050862259149565000, P 23119786308483888000, P 8952915068337971000,
  N 36057320405185680000, P 33301127788507884000, P 2123933043939392600, N 43416492681398716000,
  P 52388434929035130000]
/-- `freud/order/Wigner3j.cc`, `case 20`, the values with `m1 = -11`. -/
noncomputable def row20_9 : List Int := [
  N 57587576537500220000, P 29286025434036734000, P 20161388171516914000, N 40088357083357620000,
  P 18621698533530052000, P 17849714336153292000, N 35364656657376630000, P 21209778706462210000,
  P 9921045374039305000, N 31554593168877290000, P 27166239416830590000, N 1527254922646043100,
  N 24747036986531457000, P 31557283383081336000, N 14104453155305192000, N 14104453155305192000,
  P 31557283383081336000, N 24747036986531457000, N 1527254922646043100, P 27166239416830590000,
  N 31554593168877290000, P 9921045374039305000, P 21209778706462210000, N 35364656657376630000,
  P 17849714336153292000, P 18621698533530052000, N 40088357083357620000, P 20161388171516914000,
  P 29286025434036734000, N 57587576537500220000]
/-- `freud/order/Wigner3j.cc`, `case 20`, the values with `m1 = -10`. -/
noncomputable def row20_10 : List Int := [
  P 59416207210648615000, N 10343034077007743000, N 36537095208581060000, P 32041113797173170000,
  P 6812522305094141000, N 34465661462600970000, P 25879982590408900000, P 6476139177256272000,
  N 31093318553435970000, P 27166239416830590000, N 66240964602123240, N 26255424209331992000,
  P 30216608042805994000, N 9387415455545348000, N 18825359050076502000, P 31640089624272040000,
  N 18825359050076502000, N 9387415455545348000, P 30216608042805994000, N 26255424209331992000,
  N 66240964602123240, P 27166239416830590000, N 31093318553435970000, P 6476139177256272000,
  P 25879982590408900000, N 34465661462600970000, P 6812522305094141000, P 32041113797173170000,
  N 36537095208581060000, N 10343034077007743000, P 59416207210648615000]
/-- `freud/order/Wigner3j.cc`, `case 20`, the values with `m1 = -9`. -/
noncomputable def row20_11 : List Int := [
  N 57587576537500220000, N 10343034077007743000, P 42548829742554480000, N 12176442656288540000,
  N 28748781148966444000, P 32436743055838185000, N 998836535756104300, N 29179311948653070000,
  P 29034100795143280000, N 1527254922646043100, N 26255424209331992000, P 29686354225952810000,
  N 7045695965290556000, N 21220553119206870000, P 30979239330514604000, N 14369269283190541000,
  N 14369269283190541000, P 30979239330514604000, N 21220553119206870000, N 7045695965290556000,
  P 29686354225952810000, N 26255424209331992000, N 1527254922646043100, P 29034100795143280000,
  N 29179311948653070000, N 998836535756104300, P 32436743055838185000, N 28748781148966444000,
  N 12176442656288540000, P 42548829742554480000, N 10343034077007743000, N 57587576537500220000]
/-- `freud/order/Wigner3j.cc`, `case 20`, the values with `m1 = -8`. -/
noncomputable def row20_12 : List Int := [
  P 52388434929035130000, P 29286025434036734000, N 36537095208581060000, N 12176442656288540000,
  P 37342998549652290000, N 13130000808752056000, N 24140094468019603000, P 32109531259110265000,
  N 6022720117838283000, N 24747036986531457000, P 30216608042805994000, N 7045695965290556000,
  N 21946034114876792000, P 30462927575746190000, N 11673137937825442000, N 17236671900412360000,
  P 30810947429936546000, N 17236671900412360000, N 11673137937825442000, P 30462927575746190000,
  N 21946034114876792000, N 7045695965290556000, P 30216608042805994000, N 24747036986531457000,
  N 6022720117838283000, P 32109531259110265000, N 24140094468019603000, N 13130000808752056000,
  P 37342998549652290000, N 12176442656288540000, N 36537095208581060000, P 29286025434036734000,
  P 52388434929035130000]
/-- `freud/order/Wigner3j.cc`, `case 20`, the values with `m1 = -7`. -/
noncomputable def row20_13 : List Int := [
  N 44615595699398310000, N 43416492681398716000, P 20161388171516914000, P 32041113797173170000,
  N 28748781148966444000, N 13130000808752056000, P 34572898643045330000, N 13716660068143025000,
  N 21031934071634412000, P 31557283383081336000, N 9387415455545348000, N 21220553119206870000,
  P 30462927575746190000, N 10776399200789983000, N 18534154698679004000, P 30465274539099690000,
  N 14551094714836526000, N 14551094714836526000, P 30465274539099690000, N 18534154698679004000,
  N 10776399200789983000, P 30462927575746190000, N 21220553119206870000, N 9387415455545348000,
  P 31557283383081336000, N 21031934071634412000, N 13716660068143025000, P 34572898643045330000,
  N 13130000808752056000, N 28748781148966444000, P 32041113797173170000, P 20161388171516914000,
  N 43416492681398716000, N 44615595699398310000]
/-- `freud/order/Wigner3j.cc`, `case 20`, the values with `m1 = -6`. -/
noncomputable def row20_14 : List Int := [
  P 35402120387117470000, P 50797090280632590000, P 2123933043939392600, N 40088357083357620000,
  P 6812522305094141000, P 32436743055838185000, N 24140094468019603000, N 13716660068143025000,
  P 32826328257795995000, N 14104453155305192000, N 18825359050076502000, P 30979239330514604000,
  N 11673137937825442000, N 18534154698679004000, P 30313113652035786000, N 13210618634264398000,
  N 16111044886363720000, P 30234991085133130000, N 16111044886363720000, N 13210618634264398000,
  P 30313113652035786000, N 18534154698679004000, N 11673137937825442000, P 30979239330514604000,
  N 18825359050076502000, N 14104453155305192000, P 32826328257795995000, N 13716660068143025000,
  N 24140094468019603000, P 32436743055838185000, P 6812522305094141000, N 40088357083357620000,
  P 2123933043939392600, P 50797090280632590000, P 35402120387117470000]
/-- `freud/order/Wigner3j.cc`, `case 20`, the values with `m1 = -5`. -/
noncomputable def row20_15 : List Int := [
  N 25978054192733392000, N 51019885605371010000, N 24464622414979025000, P 33301127788507884000,
  P 18621698533530052000, N 34465661462600970000, N 998836535756104300, P 32109531259110265000,
  N 21031934071634412000, N 14104453155305192000, P 31640089624272040000, N 14369269283190541000,
  N 17236671900412360000, P 30465274539099690000, N 13210618634264398000, N 16603806802589334000,
  P 30058279798951200000, N 14672765684867526000, N 14672765684867526000, P 30058279798951200000,
  N 16603806802589334000, N 13210618634264398000, P 30465274539099690000, N 17236671900412360000,
  N 14369269283190541000, P 31640089624272040000, N 14104453155305192000, N 21031934071634412000,
  P 32109531259110265000, N 998836535756104300, N 34465661462600970000, P 18621698533530052000,
  P 33301127788507884000, N 24464622414979025000, N 51019885605371010000, N 25978054192733392000]
/-- `freud/order/Wigner3j.cc`, `case 20`, the values with `m1 = -4`. -/
noncomputable def row20_16 : List Int := [
  P 17426608529437587000, P 45182401235578366000, P 41400862074879670000, N 13993429710596266000,
  N 36057320405185680000, P 17849714336153292000, P 25879982590408900000, N 29179311948653070000,
  N 6022720117838283000, P 31557283383081336000, N 18825359050076502000, N 14369269283190541000,
  P 30810947429936546000, N 14551094714836526000, N 16111044886363720000, P 30058279798951200000,
  N 14196764518339759000, N 15358104370541330000, P 29854661591954577000, N 15358104370541330000,
  N 14196764518339759000, P 30058279798951200000, N 16111044886363720000, N 14551094714836526000,
  P 30810947429936546000, N 14369269283190541000, N 18825359050076502000, P 31557283383081336000,
  N 6022720117838283000, N 29179311948653070000, P 25879982590408900000, P 17849714336153292000,
  N 36057320405185680000, N 13993429710596266000, P 41400862074879670000, P 45182401235578366000,
  P 17426608529437587000]
/-- `freud/order/Wigner3j.cc`, `case 20`, the values with `m1 = -3`. -/
noncomputable def row20_17 : List Int := [
  N 10495754201812346000, N 35467138110187785000, N 49457654564265555000, N 11196594598243893000,
  P 37432504658518510000, P 8952915068337971000, N 35364656657376630000, P 6476139177256272000,
  P 29034100795143280000, N 24747036986531457000, N 9387415455545348000, P 30979239330514604000,
  N 17236671900412360000, N 14551094714836526000, P 30234991085133130000, N 14672765684867526000,
  N 15358104370541330000, P 29779086652332254000, N 14747693316881360000, N 14747693316881360000,
  P 29779086652332254000, N 15358104370541330000, N 14672765684867526000, P 30234991085133130000,
  N 14551094714836526000, N 17236671900412360000, P 30979239330514604000, N 9387415455545348000,
  N 24747036986531457000, P 29034100795143280000, P 6476139177256272000, N 35364656657376630000,
  P 8952915068337971000, P 37432504658518510000, N 11196594598243893000, N 49457654564265555000,
  N 35467138110187785000, N 10495754201812346000]
/-- `freud/order/Wigner3j.cc`, `case 20`, the values with `m1 = -2`. -/
noncomputable def row20_18 : List Int := [
  P 5507644580631185000, P 24468353148246223000, P 48006184232305564000, P 33927245271150090000,
  N 21687144131695292000, N 31831607683290866000, P 23119786308483888000, P 21209778706462210000,
  N 31093318553435970000, N 1527254922646043100, P 30216608042805994000, N 21220553119206870000,
  N 11673137937825442000, P 30465274539099690000, N 16111044886363720000, N 14672765684867526000,
  P 29854661591954577000, N 14747693316881360000, N 14924910412451557000, P 29637533898749846000,
  N 14924910412451557000, N 14747693316881360000, P 29854661591954577000, N 14672765684867526000,
  N 16111044886363720000, P 30465274539099690000, N 11673137937825442000, N 21220553119206870000,
  P 30216608042805994000, N 1527254922646043100, N 31093318553435970000, P 21209778706462210000,
  P 23119786308483888000, N 31831607683290866000, N 21687144131695292000, P 33927245271150090000,
  P 48006184232305564000, P 24468353148246223000, P 5507644580631185000]
/-- `freud/order/Wigner3j.cc`, `case 20`, the values with `m1 = -1`. -/
noncomputable def row20_19 : List Int := [
  N 2379167765147343200, N 14481938107885934000, N 39135103492501140000, N 47334079710196104000,
  N 4816138116954908000, P 38250714076793210000, P 4188386075868270000, N 35050862259149565000,
  P 9921045374039305000, P 27166239416830590000, N 26255424209331992000, N 7045695965290556000,
  P 30462927575746190000, N 18534154698679004000, N 13210618634264398000, P 30058279798951200000,
  N 15358104370541330000, N 14747693316881360000, P 29637533898749846000, N 14783442067309836000,
  N 14783442067309836000, P 29637533898749846000, N 14747693316881360000, N 15358104370541330000,
  P 30058279798951200000, N 13210618634264398000, N 18534154698679004000, P 30462927575746190000,
  N 7045695965290556000, N 26255424209331992000, P 27166239416830590000, P 9921045374039305000,
  N 35050862259149565000, P 4188386075868270000, P 38250714076793210000, N 4816138116954908000,
  N 47334079710196104000, N 39135103492501140000, N 14481938107885934000, N 2379167765147343200]
/-- `freud/order/Wigner3j.cc`, `case 20`, the values with `m1 = 0`. -/
noncomputable def row20_20 : List Int := [
  P 734227112568117200, P 6975157569397114000, P 26629852582759020000, P 48487228933825274000,
  P 31251209304796390000, N 23894436812027072000, N 30200241805829343000, P 24636296223062636000,
  P 19573792649607000000, N 31554593168877290000, N 66240964602123240, P 29686354225952810000,
  N 21946034114876792000, N 10776399200789983000, P 30313113652035786000, N 16603806802589334000,
  N 14196764518339759000, P 29779086652332254000, N 14924910412451557000, N 14783442067309836000,
  P 29566884134619670000, N 14783442067309836000, N 14924910412451557000, P 29779086652332254000,
  N 14196764518339759000, N 16603806802589334000, P 30313113652035786000, N 10776399200789983000,
  N 21946034114876792000, P 29686354225952810000, N 66240964602123240, N 31554593168877290000,
  P 19573792649607000000, P 24636296223062636000, N 30200241805829343000, N 23894436812027072000,
  P 31251209304796390000, P 48487228933825274000, P 26629852582759020000, P 6975157569397114000,
  P 734227112568117200]
/-- `freud/order/Wigner3j.cc`, `case 20`, the values with `m1 = 1`. -/
noncomputable def row20_21 : List Int := [
  N 2379167765147343200, N 14481938107885934000, N 39135103492501140000, N 47334079710196104000,
  N 4816138116954908000, P 38250714076793210000, P 4188386075868270000, N 35050862259149565000,
  P 9921045374039305000, P 27166239416830590000, N 26255424209331992000, N 7045695965290556000,
  P 30462927575746190000, N 18534154698679004000, N 13210618634264398000, P 30058279798951200000,
  N 15358104370541330000, N 14747693316881360000, P 29637533898749846000, N 14783442067309836000,
  N 14783442067309836000, P 29637533898749846000, N 14747693316881360000, N 15358104370541330000,
  P 30058279798951200000, N 13210618634264398000, N 18534154698679004000, P 30462927575746190000,
  N 7045695965290556000, N 26255424209331992000, P 27166239416830590000, P 9921045374039305000,
  N 35050862259149565000, P 4188386075868270000, P 38250714076793210000, N 4816138116954908000,
  N 47334079710196104000, N 39135103492501140000, N 14481938107885934000, N 2379167765147343200]
/-- `freud/order/Wigner3j.cc`, `case 20`, the values with `m1 = 2`. -/
noncomputable def row20_22 : List Int := [
  P 5507644580631185000, P 24468353148246223000, P 48006184232305564000, P 33927245271150090000,
  N 21687144131695292000, N 31831607683290866000, P 23119786308483888000, P 21209778706462210000,
  N 31093318553435970000, N 1527254922646043100, P 30216608042805994000, N 21220553119206870000,
  N 11673137937825442000, P 30465274539099690000, N 16111044886363720000, N 14672765684867526000,
  P 29854661591954577000, N 14747693316881360000, N 14924910412451557000, P 29637533898749846000,
  N 14924910412451557000, N 14747693316881360000, P 29854661591954577000, N 14672765684867526000,
  N 16111044886363720000, P 30465274539099690000, N 11673137937825442000, N 21220553119206870000,
  P 30216608042805994000, N 1527254922646043100, N 31093318553435970000, P 21209778706462210000,
  P 23119786308483888000, N 31831607683290866000, N 21687144131695292000, P 33927245271150090000,
  P 48006184232305564000, P 24468353148246223000, P 5507644580631185000]
/-- `freud/order/Wigner3j.cc`, `case 20`, the values with `m1 = 3`. -/
noncomputable def row20_23 : List Int := [
  N 10495754201812346000, N 35467138110187785000, N 49457654564265555000, N 11196594598243893000,
  P 37432504658518510000, P 8952915068337971000, N 35364656657376630000, P 6476139177256272000,
  P 29034100795143280000, N 24747036986531457000, N 9387415455545348000, P 30979239330514604000,
  N 17236671900412360000, N 14551094714836526000, P 30234991085133130000, N 14672765684867526000,
  N 15358104370541330000, P 29779086652332254000, N 14747693316881360000, N 14747693316881360000,
  P 29779086652332254000, N 15358104370541330000, N 14672765684867526000, P 30234991085133130000,
  N 14551094714836526000, N 17236671900412360000, P 30979239330514604000, N 9387415455545348000,
  N 24747036986531457000, P 29034100795143280000, P 6476139177256272000, N 35364656657376630000,
  P 8952915068337971000, P 37432504658518510000, N 11196594598243893000, N 49457654564265555000,
  N 35467138110187785000, N 10495754201812346000]
/-- `freud/order/Wigner3j.cc`, `case 20`, the values with `m1 = 4`. -/
noncomputable def row20_24 : List Int := [
  P 17426608529437587000, P 45182401235578366000, P 41400862074879670000, N 13993429710596266000,
  N 36057320405185680000, P 17849714336153292000, P 25879982590408900000, N 29179311948653070000,
  N 6022720117838283000, P 31557283383081336000, N 18825359050076502000, N 14369269283190541000,
  P 30810947429936546000, N 14551094714836526000, N 16111044886363720000, P 30058279798951200000,
  N 14196764518339759000, N 15358104370541330000, P 29854661591954577000, N 15358104370541330000,
  N 14196764518339759000, P 30058279798951200000, N 16111044886363720000, N 14551094714836526000,
  P 30810947429936546000, N 14369269283190541000, N 18825359050076502000, P 31557283383081336000,
  N 6022720117838283000, N 29179311948653070000, P 25879982590408900000, P 17849714336153292000,
  N 36057320405185680000, N 13993429710596266000, P 41400862074879670000, P 45182401235578366000,
  P 17426608529437587000]
/-- `freud/order/Wigner3j.cc`, `case 20`, the values with `m1 = 5`. -/
noncomputable def row20_25 : List Int := [
  N 25978054192733392000, N 51019885605371010000, N 24464622414979025000, P 33301127788507884000,
  P 18621698533530052000, N 34465661462600970000, N 998836535756104300, P 32109531259110265000,
  N 21031934071634412000, N 14104453155305192000, P 31640089624272040000, N 14369269283190541000,
  N 17236671900412360000, P 30465274539099690000, N 13210618634264398000, N 16603806802589334000,
  P 30058279798951200000, N 14672765684867526000, N 14672765684867526000, P 30058279798951200000,
  N 16603806802589334000, N 13210618634264398000, P 30465274539099690000, N 17236671900412360000,
  N 14369269283190541000, P 31640089624272040000, N 14104453155305192000, N 21031934071634412000,
  P 32109531259110265000, N 998836535756104300, N 34465661462600970000, P 18621698533530052000,
  P 33301127788507884000, N 24464622414979025000, N 51019885605371010000, N 25978054192733392000]
/-- `freud/order/Wigner3j.cc`, `case 20`, the values with `m1 = 6`. -/
noncomputable def row20_26 : List Int := [
  P 35402120387117470000, P 50797090280632590000, P 2123933043939392600, N 40088357083357620000,
  P 6812522305094141000, P 32436743055838185000, N 24140094468019603000, N 13716660068143025000,
  P 32826328257795995000, N 14104453155305192000, N 18825359050076502000, P 30979239330514604000,
  N 11673137937825442000, N 18534154698679004000, P 30313113652035786000, N 13210618634264398000,
  N 16111044886363720000, P 30234991085133130000, N 16111044886363720000, N 13210618634264398000,
  P 30313113652035786000, N 18534154698679004000, N 11673137937825442000, P 30979239330514604000,
  N 18825359050076502000, N 14104453155305192000, P 32826328257795995000, N 13716660068143025000,
  N 24140094468019603000, P 32436743055838185000, P 6812522305094141000, N 40088357083357620000,
  P 2123933043939392600, P 50797090280632590000, P 35402120387117470000]
/-- `freud/order/Wigner3j.cc`, `case 20`, the values with `m1 = 7`. -/
noncomputable def row20_27 : List Int := [
  N 44615595699398310000, N 43416492681398716000, P 20161388171516914000, P 32041113797173170000,
  N 28748781148966444000, N 13130000808752056000, P 34572898643045330000, N 13716660068143025000,
  N 21031934071634412000, P 31557283383081336000, N 9387415455545348000, N 21220553119206870000,
  P 30462927575746190000, N 10776399200789983000, N 18534154698679004000, P 30465274539099690000,
  N 14551094714836526000, N 14551094714836526000, P 30465274539099690000, N 18534154698679004000,
  N 10776399200789983000, P 30462927575746190000, N 21220553119206870000, N 9387415455545348000,
  P 31557283383081336000, N 21031934071634412000, N 13716660068143025000, P 34572898643045330000,
  N 13130000808752056000, N 28748781148966444000, P 32041113797173170000, P 20161388171516914000,
  N 43416492681398716000, N 44615595699398310000]
/-- `freud/order/Wigner3j.cc`, `case 20`, the values with `m1 = 8`. -/
noncomputable def row20_28 : List Int := [
  P 52388434929035130000, P 29286025434036734000, N 36537095208581060000, N 12176442656288540000,
  P 37342998549652290000, N 13130000808752056000, N 24140094468019603000, P 32109531259110265000,
  N 6022720117838283000, N 24747036986531457000, P 30216608042805994000, N 7045695965290556000,
  N 21946034114876792000, P 30462927575746190000, N 11673137937825442000, N 17236671900412360000,
  P 30810947429936546000, N 17236671900412360000, N 11673137937825442000, P 30462927575746190000,
  N 21946034114876792000, N 7045695965290556000, P 30216608042805994000, N 24747036986531457000,
  N 6022720117838283000, P 32109531259110265000, N 24140094468019603000, N 13130000808752056000,
  P 37342998549652290000, N 12176442656288540000, N 36537095208581060000, P 29286025434036734000,
  P 52388434929035130000]
/-- `freud/order/Wigner3j.cc`, `case 20`, the values with `m1 = 9`. -/
noncomputable def row20_29 : List Int := [
  N 57587576537500220000, N 10343034077007743000, P 42548829742554480000, N 12176442656288540000,
  N 28748781148966444000, P 32436743055838185000, N 998836535756104300, N 29179311948653070000,
  P 29034100795143280000, N 1527254922646043100, N 26255424209331992000, P 29686354225952810000,
  N 7045695965290556000, N 21220553119206870000, P 30979239330514604000, N 14369269283190541000,
  N 14369269283190541000, P 30979239330514604000, N 21220553119206870000, N 7045695965290556000,
  P 29686354225952810000, N 26255424209331992000, N 1527254922646043100, P 29034100795143280000,
  N 29179311948653070000, N 998836535756104300, P 32436743055838185000, N 28748781148966444000,
  N 12176442656288540000, P 42548829742554480000, N 10343034077007743000, N 57587576537500220000]
/-- `freud/order/Wigner3j.cc`, `case 20`, the values with `m1 = 10`. -/
noncomputable def row20_30 : List Int := [
  P 59416207210648615000, N 10343034077007743000, N 36537095208581060000, P 32041113797173170000,
  P 6812522305094141000, N 34465661462600970000, P 25879982590408900000, P 6476139177256272000,
  N 31093318553435970000, P 27166239416830590000, N 66240964602123240, N 26255424209331992000,
  P 30216608042805994000, N 9387415455545348000, N 18825359050076502000, P 31640089624272040000,
  N 18825359050076502000, N 9387415455545348000, P 30216608042805994000, N 26255424209331992000,
  N 66240964602123240, P 27166239416830590000, N 31093318553435970000, P 6476139177256272000,
  P 25879982590408900000, N 34465661462600970000, P 6812522305094141000, P 32041113797173170000,
  N 36537095208581060000, N 10343034077007743000, P 59416207210648615000]
/-- `freud/order/Wigner3j.cc`, `case 20`, the values with `m1 = 11`. -/
noncomputable def row20_31 : List Int := [
  N 57587576537500220000, P 29286025434036734000, P 20161388171516914000, N 40088357083357620000,
  P 18621698533530052000, P 17849714336153292000, N 35364656657376630000, P 21209778706462210000,
  P 9921045374039305000, N 31554593168877290000, P 27166239416830590000, N 1527254922646043100,
  N 24747036986531457000, P 31557283383081336000, N 14104453155305192000, N 14104453155305192000,
  P 31557283383081336000, N 24747036986531457000, N 1527254922646043100, P 27166239416830590000,
  N 31554593168877290000, P 9921045374039305000, P 21209778706462210000, N 35364656657376630000,
  P 17849714336153292000, P 18621698533530052000, N 40088357083357620000, P 20161388171516914000,
  P 29286025434036734000, N 57587576537500220000]
/-- `freud/order/Wigner3j.cc`, `case 20`, the values with `m1 = 12`. -/
noncomputable def row20_32 : List Int := [
  P 52388434929035130000, N 43416492681398716000, P 2123933043939392600, P 33301127788507884000,
  N 36057320405185680000, P 8952915068337971000, P 23119786308483888000, N 35050862259149565000,
  P 19573792649607000000, P 9921045374039305000, N 31093318553435970000, P 29034100795143280000,
  N 6022720117838283000, N 21031934071634412000, P 32826328257795995000, N 21031934071634412000,
  N 6022720117838283000, P 29034100795143280000, N 31093318553435970000, P 9921045374039305000,
  P 19573792649607000000, N 35050862259149565000, P 23119786308483888000, P 8952915068337971000,
  N 36057320405185680000, P 33301127788507884000, P 2123933043939392600, N 43416492681398716000,
  P 52388434929035130000]
/-- `freud/order/Wigner3j.cc`, `case 20`, the values with `m1 = 13`. -/
noncomputable def row20_33 : List Int := [
  N 44615595699398310000, P 50797090280632590000, N 24464622414979025000, N 13993429710596266000,
  P 37432504658518510000, N 31831607683290866000, P 4188386075868270000, P 24636296223062636000,
  N 35050862259149565000, P 21209778706462210000, P 6476139177256272000, N 29179311948653070000,
  P 32109531259110265000, N 13716660068143025000, N 13716660068143025000, P 32109531259110265000,
  N 29179311948653070000, P 6476139177256272000, P 21209778706462210000, N 35050862259149565000,
  P 24636296223062636000, P 4188386075868270000, N 31831607683290866000, P 37432504658518510000,
  N 13993429710596266000, N 24464622414979025000, P 50797090280632590000, N 44615595699398310000]
/-- `freud/order/Wigner3j.cc`, `case 20`, the values with `m1 = 14`. -/
noncomputable def row20_34 : List Int := [
  P 35402120387117470000, N 51019885605371010000, P 41400862074879670000, N 11196594598243893000,
  N 21687144131695292000, P 38250714076793210000, N 30200241805829343000, P 4188386075868270000,
  P 23119786308483888000, N 35364656657376630000, P 25879982590408900000, N 998836535756104300,
  N 24140094468019603000, P 34572898643045330000, N 24140094468019603000, N 998836535756104300,
  P 25879982590408900000, N 35364656657376630000, P 23119786308483888000, P 4188386075868270000,
  N 30200241805829343000, P 38250714076793210000, N 21687144131695292000, N 11196594598243893000,
  P 41400862074879670000, N 51019885605371010000, P 35402120387117470000]
/-- `freud/order/Wigner3j.cc`, `case 20`, the values with `m1 = 15`. -/
noncomputable def row20_35 : List Int := [
  N 25978054192733392000, P 45182401235578366000, N 49457654564265555000, P 33927245271150090000,
  N 4816138116954908000, N 23894436812027072000, P 38250714076793210000, N 31831607683290866000,
  P 8952915068337971000, P 17849714336153292000, N 34465661462600970000, P 32436743055838185000,
  N 13130000808752056000, N 13130000808752056000, P 32436743055838185000, N 34465661462600970000,
  P 17849714336153292000, P 8952915068337971000, N 31831607683290866000, P 38250714076793210000,
  N 23894436812027072000, N 4816138116954908000, P 33927245271150090000, N 49457654564265555000,
  P 45182401235578366000, N 25978054192733392000]
/-- `freud/order/Wigner3j.cc`, `case 20`, the values with `m1 = 16`. -/
noncomputable def row20_36 : List Int := [
  P 17426608529437587000, N 35467138110187785000, P 48006184232305564000, N 47334079710196104000,
  P 31251209304796390000, N 4816138116954908000, N 21687144131695292000, P 37432504658518510000,
  N 36057320405185680000, P 18621698533530052000, P 6812522305094141000, N 28748781148966444000,
  P 37342998549652290000, N 28748781148966444000, P 6812522305094141000, P 18621698533530052000,
  N 36057320405185680000, P 37432504658518510000, N 21687144131695292000, N 4816138116954908000,
  P 31251209304796390000, N 47334079710196104000, P 48006184232305564000, N 35467138110187785000,
  P 17426608529437587000]
/-- `freud/order/Wigner3j.cc`, `case 20`, the values with `m1 = 17`. -/
noncomputable def row20_37 : List Int := [
  N 10495754201812346000, P 24468353148246223000, N 39135103492501140000, P 48487228933825274000,
  N 47334079710196104000, P 33927245271150090000, N 11196594598243893000, N 13993429710596266000,
  P 33301127788507884000, N 40088357083357620000, P 32041113797173170000, N 12176442656288540000,
  N 12176442656288540000, P 32041113797173170000, N 40088357083357620000, P 33301127788507884000,
  N 13993429710596266000, N 11196594598243893000, P 33927245271150090000, N 47334079710196104000,
  P 48487228933825274000, N 39135103492501140000, P 24468353148246223000, N 10495754201812346000]
/-- `freud/order/Wigner3j.cc`, `case 20`, the values with `m1 = 18`. -/
noncomputable def row20_38 : List Int := [
  P 5507644580631185000, N 14481938107885934000, P 26629852582759020000, N 39135103492501140000,
  P 48006184232305564000, N 49457654564265555000, P 41400862074879670000, N 24464622414979025000,
  P 2123933043939392600, P 20161388171516914000, N 36537095208581060000, P 42548829742554480000,
  N 36537095208581060000, P 20161388171516914000, P 2123933043939392600, N 24464622414979025000,
  P 41400862074879670000, N 49457654564265555000, P 48006184232305564000, N 39135103492501140000,
  P 26629852582759020000, N 14481938107885934000, P 5507644580631185000]
/-- `freud/order/Wigner3j.cc`, `case 20`, the values with `m1 = 19`. -/
noncomputable def row20_39 : List Int := [
  N 2379167765147343200, P 6975157569397114000, N 14481938107885934000, P 24468353148246223000,
  N 35467138110187785000, P 45182401235578366000, N 51019885605371010000, P 50797090280632590000,
  N 43416492681398716000, P 29286025434036734000, N 10343034077007743000, N 10343034077007743000,
  P 29286025434036734000, N 43416492681398716000, P 50797090280632590000, N 51019885605371010000,
  P 45182401235578366000, N 35467138110187785000, P 24468353148246223000, N 14481938107885934000,
  P 6975157569397114000, N 2379167765147343200]
/-- `freud/order/Wigner3j.cc`, `case 20`, the values with `m1 = 20`. -/
noncomputable def row20_40 : List Int := [
  P 734227112568117200, N 2379167765147343200, P 5507644580631185000, N 10495754201812346000,
  P 17426608529437587000, N 25978054192733392000, P 35402120387117470000, N 44615595699398310000,
  P 52388434929035130000, N 57587576537500220000, P 59416207210648615000, N 57587576537500220000,
  P 52388434929035130000, N 44615595699398310000, P 35402120387117470000, N 25978054192733392000,
  P 17426608529437587000, N 10495754201812346000, P 5507644580631185000, N 2379167765147343200,
  P 734227112568117200]
/-- `case 20` of `getWigner3j`, times `10 ^ 21`; the rows above are its parts with `m1 = -20, ..., 20`. -/
noncomputable def table20 : List (List Int) := [
  row20_0, row20_1, row20_2, row20_3, row20_4, row20_5,
  row20_6, row20_7, row20_8, row20_9, row20_10, row20_11,
  row20_12, row20_13, row20_14, row20_15, row20_16, row20_17,
  row20_18, row20_19, row20_20, row20_21, row20_22, row20_23,
  row20_24, row20_25, row20_26, row20_27, row20_28, row20_29,
  row20_30, row20_31, row20_32, row20_33, row20_34, row20_35,
  row20_36, row20_37, row20_38, row20_39, row20_40]

/-- `getWigner3j`, `freud/order/Wigner3j.cc:59-5833`; `none` is the exception of line 5832. -/
noncomputable def table : Nat → Option (List Int)
  | 0 => some table0.flatten
  | 1 => some table1.flatten
  | 2 => some table2.flatten
  | 3 => some table3.flatten
  | 4 => some table4.flatten
  | 5 => some table5.flatten
  | 6 => some table6.flatten
  | 7 => some table7.flatten
  | 8 => some table8.flatten
  | 9 => some table9.flatten
  | 10 => some table10.flatten
  | 11 => some table11.flatten
  | 12 => some table12.flatten
  | 13 => some table13.flatten
  | 14 => some table14.flatten
  | 15 => some table15.flatten
  | 16 => some table16.flatten
  | 17 => some table17.flatten
  | 18 => some table18.flatten
  | 19 => some table19.flatten
  | 20 => some table20.flatten
  | _ => none

end Freud.Wigner
