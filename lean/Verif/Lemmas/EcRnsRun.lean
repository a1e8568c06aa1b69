import Verif.Lemmas.EcRnsWitness
import Verif.Props.PippengerRns

/-!
# Long runs on residue vectors in the kernel

Point operations on residue vectors in continuation-passing style: every intermediate limb is evaluated once.  They
return `false` when an operand of a negation is outside its domain (`rnsAddOk`, `rnsDoubleOk`).
-/

namespace Verif.EcRns

open Verif.EcChunks Verif.Props Verif.Pippenger

/-- `k n`, with `n` evaluated first. -/
noncomputable def fN {β : Type} (n : Nat) (k : Nat → β) : β := Nat.rec (k 0) (fun m _ => k (Nat.succ m)) n

theorem fN_eq {β : Type} (n : Nat) (k : Nat → β) : fN n k = k n := by cases n <;> rfl

/-- One folding step. -/
noncomputable def stepF (t v : Nat) : Nat := Nat.add (Nat.mod v 65536) (Nat.mul (Nat.div v 65536) t)

theorem stepF_eq (t v : Nat) : stepF t v = v % 65536 + v / 65536 * t := rfl

noncomputable def foldF (t v : Nat) : Nat := fN (stepF t v) fun i => fN (stepF t i) fun i => stepF t i

noncomputable def foldG (t v : Nat) : Nat := fN (stepF t v) fun i => stepF t i

theorem step_unique {i u l : Nat} (h : i = u * 2 ^ 16 + l) (hl : l < 65536) (t : Nat) : stepF t i = l + u * t := by
  rw [stepF_eq]
  have h1 : i % 65536 = l := by omega
  have h2 : i / 65536 = u := by omega
  rw [h1, h2]

theorem foldF_eq (t v : Nat) (ht : t < 256) (hv : v < 2 ^ 32) : foldF t v = foldRed t v := by
  unfold foldF foldRed
  simp only [fN_eq]
  have e : stepF t v = (v % 2 ^ 16 + v / 2 ^ 16 % 2 ^ 16 * t % 2 ^ 32) % 2 ^ 32 := by
    rw [stepF_eq]
    have h1 : v / 65536 < 65536 := by omega
    have p1 : v / 65536 * t ≤ 65535 * 255 := Nat.mul_le_mul (by omega) (by omega)
    rw [show v / 2 ^ 16 % 2 ^ 16 = v / 65536 by omega, show v % 2 ^ 16 = v % 65536 from rfl]
    generalize v / 65536 * t = y at *
    omega
  have b1 : stepF t v ≤ 65535 + 65535 * 255 := by
    rw [stepF_eq]
    have p1 : v / 65536 * t ≤ 65535 * 255 := Nat.mul_le_mul (by omega) (by omega)
    generalize v / 65536 * t = y at *
    omega
  rw [← e]
  generalize stepF t v = i at b1
  have e : stepF t i = (i % 2 ^ 16 + i / 2 ^ 16 % 2 ^ 8 * t % 2 ^ 16) % 2 ^ 32 := by
    rw [stepF_eq]
    have p1 : i / 65536 * t ≤ 255 * 255 := Nat.mul_le_mul (by omega) (by omega)
    rw [show i / 2 ^ 16 % 2 ^ 8 = i / 65536 by omega, show i % 2 ^ 16 = i % 65536 from rfl]
    generalize i / 65536 * t = y at *
    omega
  have b2 : stepF t i ≤ 65535 + 255 * 255 := by
    rw [stepF_eq]
    have p1 : i / 65536 * t ≤ 255 * 255 := Nat.mul_le_mul (by omega) (by omega)
    generalize i / 65536 * t = y at *
    omega
  rw [← e]
  generalize stepF t i = i at b2
  rw [stepF_eq, show i / 2 ^ 16 % 2 ^ 8 = i / 65536 by omega, show i % 2 ^ 16 = i % 65536 from rfl]
  rcases Nat.le_one_iff_eq_zero_or_eq_one.1 (show i / 65536 ≤ 1 by omega) with h | h <;> rw [h] <;> omega

theorem foldG_eq (t v : Nat) (ht : t < 256) (hv : v < 2 ^ 24) : foldG t v = foldAdd t v := by
  unfold foldG foldAdd
  simp only [fN_eq]
  have e : stepF t v = (v / 2 ^ 16 % 2 ^ 8 * t % 2 ^ 16 + v % 2 ^ 16) % 2 ^ 32 := by
    rw [stepF_eq]
    have p1 : v / 65536 * t ≤ 255 * 255 := Nat.mul_le_mul (by omega) (by omega)
    rw [show v / 2 ^ 16 % 2 ^ 8 = v / 65536 by omega, show v % 2 ^ 16 = v % 65536 from rfl]
    generalize v / 65536 * t = y at *
    omega
  have b2 : stepF t v ≤ 65535 + 255 * 255 := by
    rw [stepF_eq]
    have p1 : v / 65536 * t ≤ 255 * 255 := Nat.mul_le_mul (by omega) (by omega)
    generalize v / 65536 * t = y at *
    omega
  rw [← e]
  generalize stepF t v = i at b2
  rw [stepF_eq, show i / 2 ^ 16 % 2 ^ 8 = i / 65536 by omega, show i % 2 ^ 16 = i % 65536 from rfl]
  rcases Nat.le_one_iff_eq_zero_or_eq_one.1 (show i / 65536 ≤ 1 by omega) with h | h <;> rw [h] <;> omega

/-- `zipWith`. -/
noncomputable def zipK {β : Type} (f : Nat → Nat → Nat) (a : List Nat) : List Nat → (List Nat → β) → β :=
  List.rec (fun _ k => k []) (fun x _ ih b k =>
    List.rec (k []) (fun y ys _ => fN (f x y) fun z => ih ys fun zs => k (z :: zs)) b) a

theorem zipK_eq {β : Type} (f : Nat → Nat → Nat) (a b : List Nat) (k : List Nat → β) :
    zipK f a b k = k (List.zipWith f a b) := by
  induction a generalizing b k with
  | nil => rfl
  | cons x a ih =>
    cases b with
    | nil => rfl
    | cons y b =>
      show fN (f x y) (fun z => zipK f a b fun zs => k (z :: zs)) = _
      rw [fN_eq, ih]
      rfl

/-- The packed rows `PACKS` and the estimates `SQES` in one number per byte. -/
def ROWS : List Nat := [
  0xab9d00004d200000645200007d3d000004d700007d9a000071fa000064bb00001ed70000afee0000c48700003d660000f158000075dc00003e5a000045f60000657f0000dc7b00003c6c0000cce700003dcd0000889500003cb9000027c50000d8330000d3a700003bdd00001ebb0000afc2000011e4000047410000b1170000b46c00005d8b0000f9bf0000dc8c0000fbe100007d2f0000f55f0000bc8a00006269000002190000fe0f0000047b0000cc1f000088e900007b41000047430000ab270000ad1700005aad,
  0x9d0000007c4400003a9f00006100000062ba00000d0b00004b86000010e200006f250000a51f0000aa360000af550000425b0000e4f10000ea5d0000776c0000962600009a1b00004da90000d3f5000037bb0000bb2d0000b451000033f60000406a00006c560000c7ca00005b55000037a70000204800002bb600005fa10000dd6600000d8800006f410000ec8700009fac000026380000bd2d0000bfd50000f6b1000070ca0000f92200001803000025fb0000f6ef000066d00000479700005d4d00002f5f0000ae47,
  0xc7b300003ef000003e48000037eb00003a3c000056e4000035c500006d4600006f260000e4d20000fa0300004f5b0000950a0000705a0000f3d80000af12000038db00008207000091e20000012a0000b9330000150f000058a8000009800000c0300000688d00003d6d0000e9b70000aafb0000385d00000c3000009a9d0000c3fb00006c5f0000770f0000ece000000efc000000540000aba10000d6430000472e0000eb760000aee6000004680000eaff000067160000bde800003a8300008ba300000b1a000016dc,
  0xb2c8000002650000740d00002fe40000426500000d5d000079610000304c00003f280000aef80000261500001b6e0000ed2d0000509b00004d0f00006b5d000002b30000d6ed000045100000562f000037c4000018080000dee4000041e000000f39000078b800006c54000054c700009b1a000062b30000d1130000c9ef00000b5000001a3f000087ed00003c6a000025f80000bfa90000f65c00005d830000b1d7000022f10000dbdb0000cb4400006d78000001760000fe2e000047ce00000a850000249a00006df1,
  0x5ce800001935000031db0000592f00006e5c00006740000028de0000591c00006bc200005071000069e7000085c200006cf100007c0c00008f6a000004ac000019610000b9e20000366300007bf3000095890000b16b00000c6c00000a0d0000491900003bf60000056000004e9600009efb00000a8c00006ce4000042f600000d970000b7ca0000921a0000f6e70000163100000c8b0000821f0000654c0000b9c000003f2f000019fc0000827100002ea000006d4a0000fad40000b9860000edbf000020a900006f78,
  0xe71700005c3f00005035000061520000606f00000666000045b6000057790000534c00009bee00005833000048b70000237b0000493d0000ce4e00000fb9000004830000e84a0000a6d000006f13000062cc00002903000023c9000032ad00000c5700005352000061cb00000cf2000064c8000023270000a32e0000082f0000fe17000014cd000076c700004dde0000727f00001fdb00004e4c0000cc990000e7d20000de6b00006c9d0000e06f0000e3b800007cec000044c40000ed5f00003965000091a300002c8b,
  0xf5a500003bce000059d500003551000060bb0000071f000064f800004f1d0000422700009f7f000067160000d6380000933f0000341200004bd10000621b0000b74a00003f8c0000ecd800007a610000d3210000dcc90000dec20000869a00006a8b0000fd240000fb6f000065780000867500007095000048090000372b000017e5000005a20000fdb4000022fa0000fba900008cae0000c799000020a500007ca00000980000009c9f0000dfe70000a93500002cbd00008aeb0000f7d9000098f200003ec10000fb61,
  0xa4cd000050c2000028fc0000298e0000530b00006dae000043d10000017d00004850000073720000c2810000b021000007e40000a52f000007ab00009fe70000f3a30000a7af0000b60c00008e7d000064bd0000bd030000c1f0000081bd00006eaf0000b6cc0000d379000096800000ca91000069c10000fbd30000515d0000c7b60000938d000058570000ff25000096d90000441d000013e30000f3f90000799c0000395c0000ac9b00001e75000094960000fac90000d330000074cc00003ebe0000f3a400004c8e,
  0x51b900002dce000012230000115600006115000031c5000011270000299700001cc900002fe50000bbc90000bafb0000fc080000dc610000838300000cb40000f2a700006f6d00001bfa000078c60000a1b20000ac610000db4100005b930000fd9a000014430000022e0000236300005fb600009c13000087af0000d6610000a01f0000ef6500002f4c0000ad310000ad95000073ac000035910000ead10000359d0000eb250000afb00000b56d0000b4c600002d6d0000e6470000026c0000c440000023240000f578,
  0xb8e00000283e00004e660000781000005b2b00000bea00007560000007300000661b0000f553000045c700009614000040fc000048cc0000bff500000f0900005e1e0000bf34000088e60000444f000026450000acbe0000f3bd0000cb64000073e30000c7ed00005dd600007ab10000955100002e6d0000b5ef000038390000ae380000724a000010820000db770000b60d00002c710000513b00000e9f0000721f0000a86c000014220000970c0000b1840000bd410000a0850000337f0000092000005c75000085f9,
  0xe8e700007a2100007576000018bf000068d40000137e000054e10000313b00005088000081160000e2f700001c530000ac2d0000e0af000084960000c563000096940000095c000069d10000f15c0000ea640000c00b0000144d00008ac800007b3b0000e7500000435600002cb10000cb980000f39500001c6c0000ad58000050f20000a71e0000281000003db90000cd4c0000f1630000ab7900002e4400006bf90000b5fd000080480000c1fe000067530000074a0000600c00002b870000d9e20000ddb500005da7,
  0xe6a6000015dd000040da0000061c0000052f00001560000038480000585a000052f10000793700006f43000062480000535e0000b45b00009a8700006c280000492f0000e5140000194d0000eb40000099050000954000001ac10000353e00006d6300005a2300008dbf000039b400005e0100006c560000c2b80000873e000093170000c1a000007ac7000012ff00002d9d00000548000013a800000b4600003d2c000010ea00003c370000d2d90000c8ae0000a881000051ae00003ae500001161000040cb00002b21,
  0xb69600000e1c00004f2e00000b620000128000005c8500005455000044050000449f0000cca700004ca800006ccc0000d5e60000ce3d0000a9df0000e9050000238800009bcb000048b30000faa000001e960000cc180000bdd20000ff310000517f0000a75c0000a87c0000bae40000406a0000e1e00000d8ce00000ed600008d5b00004beb000044c60000fbf40000234500001df600008a7c0000cd3800007a8200009a6600005e620000be58000006690000894400009806000031bf000043910000bc750000d75e,
  0x9520000035e900004e89000066e300007824000041fb000079ae000030fe000058cd000055940000570400004584000012aa0000da220000b1e60000703c00000f1b00006a51000075880000a5b40000e04c000004b3000090d500002007000061fe0000d7770000b3ca00003c41000017aa00004eed0000dfb20000bbf5000045a600008f690000491400004e0700000d670000e6c30000398e00004277000006240000197c00005422000098cb0000eeca0000ce5100004ce90000b6a00000e6dd00004a600000061f,
  0x39b600005d4600000bb800006b730000162d00002089000020de0000521b0000574c0000a35b000014ea0000eb1700008552000064870000011a0000b5bf0000da76000027cd0000cb180000d02e0000132f0000ad8000006770000050fc00002ebf00002d250000c2670000cde700001f890000af1000004284000072210000c0d800005bb8000034c800003d40000088b600005fd40000ea270000c2a100005c98000004510000035500009adc0000db030000cbfd00001fdc000007b90000dcd60000dae00000f44a,
  0xb517000038d80000147a00005a330000613400007ac800006db6000020fb0000550100004f4f0000959c0000e9140000d4b30000e6870000372d00001cec0000b943000036140000803f0000f8f100003d9d0000325a000084120000717100007d51000086af00009d440000af7500002e490000517f000042720000988b000082d3000092760000c01e0000b918000080b50000fbdb0000f073000066ff00005c6a00003f34000069ea00009e7e0000d5450000380100008097000057850000407f0000ce4400004a40,
  0x990c0000351b0000049100004e1000000ec600002f560000397c000070c200004b5600007aa9000077c3000079440000d8780000f3800000f6bf000070c500001dff0000b5f900005abc0000a7ac00008ae00000b5b4000086ae0000d7b70000698100008aa2000051450000bf7b0000e2ba0000c75d0000b177000061d50000b4190000c2d5000007060000681100008c9f00000f0f0000ca62000029240000cd5c00001988000069f20000dbe50000130900007790000016b70000d3a100004683000044af0000edc3,
  0xbbb0000572900005276000023d4000052d100002815000036b9000066d9000045510000b7550000349100008d63000064eb0000671c00007e3d0000f4d500002c830000364f000095fc0000cc2d00008f4c0000df520000868b0000fa18000085400000724b0000fba500002c26000088fb0000936d0000f671000044ac00008e43000002d80000cecd0000bf940000255300001829000007580000bad80000f2710000d085000083cd0000c73a0000eb300000b91a00004a2300000fe5000063f5000017c40000faab,
  0xd5b40000358b00006c6100000df800001bde0000179100006da400005b7900006cb30000da3e0000694b0000dd3f000019ce0000099c0000364d000022d700001811000053a20000fea2000097ac0000b3f500006900000065880000a8b3000010950000aa9c0000376900008c28000079f50000f25d0000480800001bdc0000f60f0000adbf00006b5f0000520b0000f6bf00004cde0000996800003467000041990000362a0000cc3700001a890000a27700006e97000088050000fe230000244500007aa00000086e,
  0xb38f00004452000008d300004073000048c900003c5500007fdc00001116000074a900003bb70000b31b00001a7f00009802000015fb00008e95000085ab0000700100006ec200004d070000a0bd00001c040000c8d40000daac0000593700005f2d00003418000091180000ed980000f83c0000856600004a050000b3c9000079ab0000e9520000577700006cd40000b06b0000f02d0000d48700001d290000250d0000e52c00006ba9000016040000e9d20000b39f000038860000530200000ba70000e64500004755,
  0xcd440000258f0000533a00004c1b00005e8300000a43000003ee0000020500002b8f00005f1e0000188f0000640800009b5e00007c060000cfd5000060500000ad1c0000fa800000a1d00000091f000029470000f45a00009f710000f3f5000071e600002ba500008daf0000495500001905000098bd000059c500006e010000fb8300005cd6000028dd00001ee60000a22c0000703800001ca90000d5ef000093170000019300006d320000393f000054960000a72c00002b3e00009666000089ec0000418000005287,
  0x4315000004390000794900005c0c000055fc00000f11000027820000284e0000581d0000c19f0000cc110000f60e000069fe0000bd8800004c96000070e50000b596000032f300000e2f0000baea0000b507000026540000d4f40000a0d4000003690000423e000010be00001bb200004921000063c4000027f100000ff10000c7260000812d0000d3aa00004f110000738400001c7100002ea5000091460000c6500000375e0000d2eb00007ebc00001bc3000086040000c1940000d0ac00009bf70000287a00005c50,
  0xeb2b000072480000049100000d5400005a7c0000067e00005a4200006029000005820000e9010000750000007a1f00000c900000770500005f9e000012460000acc100003b52000020ae00008d48000035c9000079dd0000719800003a2e00007346000099e80000ba6000008e25000075e80000d70e000077d80000c16e00006386000067c10000805d00009ef10000c7fa000050510000fafb00002b4800005a9f0000ab0c0000b4fc0000145900000334000005c600006c4800003d9c0000959a000009850000d1d9,
  0x2a2d00004eb20000051c00004f0e0000018400004d8100005ce40000137100001403000002a00000b880000030e700008dca000092ab00008baa0000b6540000d3d30000b4dc0000036700009b3f00001015000024f500003227000081c6000070ab0000c77e00006c560000272900005e45000028e8000011a70000c94b00009f17000064de0000d7e80000dadd0000917a0000e08d0000210f0000c2ec00007a250000575e000092b00000d06b0000f15700009ff40000ee5d0000d2190000f17c000015d40000ff68,
  0x923e00004f34000065a90000302200005fc0000018450000393600003b39000040b600009161000032a50000f8c90000c03e00009f210000c7f00000ca5c000047c700002e1900001fa80000f83100002b3d0000a7ad0000a52900006fd2000044d20000a02f0000935500007444000052c60000cb560000b7930000c6d30000383f0000dfb80000be91000020d400008441000036f700009ee20000a0b700003f2d000015f8000090c40000022c0000c19700001e30000082cc0000a8320000c9680000f2ce0000480e,
  0x3d900000311e0000022d00004dfb00005177000030ad000063dd0000210f0000788d000079a700005f2d00008c4800005c6100000bbe000042180000f7a80000dbc3000025490000a43200004c3c00006a71000024f60000d305000006b1000066320000203000004c0200000e5a000013eb0000abe400009fad00008d470000bca80000c69700006ed5000026fd00002b9d0000e8ab00003c0a0000ae67000030ef00006ba70000665f0000d32600004a5100002d9400000fa10000c41c00004d110000766a0000219b,
  0x84f600004b0f00006f470000619e000021e300004c6a00000ffd0000344300006f3900009c64000041ff0000e6860000d14600000fbc0000c8f90000c0b40000baac0000434400003d51000050ae0000bdd1000009a900009c5f0000e80d00001fa60000c3b0000040ac0000b1f0000058940000394a0000f16c0000335a000054bb0000525900000a1300008cc90000a4480000f15b00004c2b0000be970000f378000014ef0000ddfa0000948d000093f500006045000012840000bb4600005f8300006dfc00000ebb,
  0xf5a50000587e00002c270000592d000005f800001b480000744400000c56000065c80000db6f0000cc6f0000ae9e0000268c0000dc9700003dc80000a02300000f140000dbc00000a9aa0000295b00001fa40000730900002f9000000eff0000d0f00000fa9200003d130000414a000073670000c594000044050000e9130000fb8f0000316d00008f22000099a6000085d9000009e80000792600004fa00000dac90000f8be000033910000b2410000ced10000bc230000e03f00002aae00002c360000caba000085ca,
  0x18c40000714f000046c800003dba000059ee0000507e00007da200002361000059890000542500002ffb0000e6f400008e7500004e1900001f960000f6730000590100009d17000016e9000013ea00000ae90000a78b0000afe30000eb1500008c1b00000df9000062280000877c00006b6f0000eac60000237900003e21000040960000bc63000056670000ac070000df750000d4dd0000beea00005b700000c3f80000197f0000a57800008a01000072ed0000ccb900009e540000eff400007d8100002d6000007615,
  0xc31900001c2100007abc000028de00006ed20000097b00004397000033ce000025370000f6a90000f98900004d530000034900008ec600000d410000265f000094cc0000f7ec000066b10000c837000020000000f1b000001dee0000232100004f6b0000ef67000062d4000053fe0000c23f0000321c0000707d0000fa810000cf3c000081bd00001c4e00003bb700004dc3000099290000e4620000b52f0000fe380000745000001505000098d00000cf690000651e000089a8000028730000b6de0000710300002243,
  0x32c20000260500000cda000022ab00004497000026770000046400004555000063790000ca910000fcf8000014cc0000e6cf00005351000025040000a5a00000040400006f81000011890000c4db00001e2f0000468d000051290000acc900005fd500001fbf000007bd0000e6930000750a0000511f00008b560000a9920000e0e00000471b000074e20000ec8a00002b0e000091a00000a1280000e390000042510000e79700003beb000024ea0000c543000087d000005a600000396b0000a5160000f70b0000dbaa,
  0xc14500001c0a0000274a00004879000003be0000063f00004743000048a200002f770000a06900000cd600004d4e0000300500009770000033900000d5fb0000d00300000b710000cd3000001aba00006a7b0000aaae0000984c000075f00000c151000062e00000b8ff0000434000000ff500005bda0000282a0000841e0000e67d000086400000fde8000085580000c0c0000043b900003e440000e39d0000e5c600009aa80000a83e0000d215000024c00000f73f0000ce980000738100003a310000e2d0000085ec,
  0x757b000076f50000534d00003862000069ae0000418600000983000078d300003120000060cc0000da0a000015e40000c4c400007f6400002f170000028a00004be1000045c30000b7b5000037d90000823a000024230000516a0000ca400000068d00005ceb0000500a00003ae5000055470000314f0000e16b00003ff80000afa1000005a2000041c600005f4d0000b1dc0000665600001b670000d8ed00007b3b0000adc40000b690000062190000b62100008ab60000891a000015fb0000edda000018b4000047e2,
  0x7aed000029000000644a000063b900005b500000145200000e9000007f4c000048c6000067ea0000fe7000006c68000026c70000b31b00000b03000030f0000071a20000dbf90000522f000035e700008b14000045ed000072dc0000b7220000e45e000084ed000094a9000025020000504b000043b50000db700000676e0000f67a000046ac0000439000005b660000a75c00008fc60000ba1f0000139a0000eaac0000860f00000086000014ff0000c5db000086ef0000e5240000883b0000ba170000445b0000849f,
  0x2cd000002e160000789800006db400000961000050da00007bc40000127d000014e900004d66000072fc000028210000aa5b000085260000522d0000054200001fa80000bccb00002ddd000018140000553d00004c930000531c0000582f0000427d0000a97b000010150000fe4100004dc900005452000022f000000c9100003c8700000aa0000006690000140b000024510000cd0f00009d6900003546000031760000e10900003ae800000310000074260000bc3d00000b0c0000e18d000083780000ae4f00001a76,
  0xcf9500005f2600005a0f000010c200001d1d0000231c00004cd7000018bf00005a79000065db000031970000536e00004c6e0000619d000004570000972a000049910000c7170000916800006d750000d82c00000cbd00007869000065730000389b0000d606000013a300006d2100009fc300005f80000043c9000008ee0000c2010000ad060000a83d0000b57200000387000017a4000042850000834500007bc1000088ba0000eee3000022100000d0260000ada900000cf10000073c0000aceb0000931200000ec5,
  0xc31100007ab90000754b0000377e00001455000061c3000048f5000046cb000056c800000490000074d1000006d7000010bf0000d72d00007fdf00009105000096c2000014060000b12b0000fe8a000029990000b8ec0000b73a000068e600005eb700004d5d0000e8560000ee5a0000683f00006c5a0000baa100002041000023dc0000d9ca0000243500009b07000048ad00001e4e0000f69d00008b53000067d300004cdd0000bfd200004cab0000f1a50000a9ac0000653800003458000006a4000069c200002d20,
  0x10700000306600000cca00004ba200001a4a00001dbe00005e0500006c6b0000207c00000eb0000055ea000027ed0000633f0000b89b0000739e0000515c000088760000268e00003fdb0000f53200001c0e00008e040000e9380000cbac0000d6a70000e2b3000039c20000cb3100004c040000398e000065e100003dd8000043ed00003eca0000920b0000d2470000ac4f00008abc00001b2f00007520000003930000a24000000f3a00004f52000087f000007d8c00005b630000adad0000d53900001c6300002f35,
  0x9f75000059e9000013bc00006512000037250000080a000049d900001bd500005325000036920000347e0000822f0000071100005aba0000de4f000025a70000dbda00002ee200005b0a0000e2c600005caa00004e22000060650000035f0000a8fb0000933500001e5b000067290000c2aa0000768800009c4b00009b360000c6c40000fe470000ef7800008476000040a90000d7a4000074b6000079ba0000307e00000a2d0000b9040000f65d0000b25f00002cc90000da2700008a550000b1110000244400003808,
  0x746700004402000016050000308b0000430a00007f89000057480000238f000053480000aad60000a37d0000caea00002b270000d7a50000ca2b0000eb950000e69d00006e540000f1370000a7bb0000396100004826000027700000ec4b0000d2df00007c76000042200000fe880000adf1000028a300009bc8000078cb0000a4000000c1bc0000cf30000033280000e0410000ec3c0000739c00009ec1000003440000e4000000142000001b6c00004f3c00009c5a0000855e0000355c00006300000049b40000823e,
  0x61ae000013ee00001d0e0000353500007a560000290b000028c70000497900005d760000d0510000c423000045990000e8240000d77f00006d08000064cc0000d08200000da4000041ba000048890000c7ac0000a51b0000ecd60000ec080000fe450000324b0000d1270000935f00008fbe000064b900003e1c000096750000774500009aa4000003510000e419000082c40000201d0000743000003a9f00006ae80000f2ba00006ddf00002c9300001c1300005c2b0000755900000e250000206d0000fbd400009174,
  0xad1e00003668000004b900007b1d00004160000062420000033c0000137400004095000061980000d3980000cfa50000c2ee00007af000009f22000079e500003ac400000b4b000041c100009d3e000084570000a3e1000097890000015000004b5500006df300006e3800008a5d0000ca790000210e000075bd0000ae6000009ef300002f380000e37a0000cb9c000031b00000ebb8000059c20000345800009d8800009dde0000849a0000742a000066a30000c5ef0000c27f0000629a0000ce370000d9a000008b2a,
  0x72af000042c4000078380000415000005d1400006a5300000237000006f200005f0400002c9b00004a8e0000c08900002dff0000334000006c4700006f860000570f0000ba1e000044b2000011a60000220c0000193d000015960000cda80000ff27000052e100000bb100006d070000bebb0000a0cf0000e2c600007ad400003599000007c70000af4c0000072100001284000028c000001efb0000348b0000276c000066b300007c570000604b000069c00000e92c000060270000e56f0000913000008b8f0000ffe3,
  0xae6a00001531000070ba00005ed30000724e00003f6e000044f700003f0000002a9d00000564000016a30000379e00005e8e0000128000009616000023c0000089090000e20b0000f72400008e3400004d1e00001a25000042c00000593c00000e5f0000b8af0000de3b0000b4b60000af770000d6b2000038b900000bb700003e350000b2fb00005d1700009a800000f4bc0000aadd000041920000efad0000f756000025f20000af6c000058de0000fb520000ebfb0000c9600000eb1f0000f90d00006bf20000e3ed,
  0x142c00003764000038000000194900000eae00000700000034bf000023f5000047c20000b47000002b3b0000586200009fc50000d92200009726000077b00000b7190000351f00001bd000004696000038c8000009bf0000266100007c0000008c6c0000a714000077af00008ecc0000d50900005a38000030f9000054a9000046e2000066600000c60600005f980000a63c000015950000ce4e0000ebe1000077ae0000014c0000abd10000fdd40000717c000009bc00007e8f000088070000c2330000d091000021f7,
  0x2bb100001b98000048cd000025b300002bce0000541a0000456600003a86000036d80000a3c00000c72f0000a5e00000769d0000ed350000e6b90000197300003bde0000b0ea00001caa00006f5300004ed4000096d10000eee0000023410000663a0000dfa60000b07800001cf600008d3b00001d900000572200008b670000b2b5000046640000b4110000d84800003c850000e41e000029d10000311f00003658000075bb0000220f0000754d00003e3f000014bc0000ae0900000c04000001fb0000b9910000817e,
  0xcfca00001eb9000018e500000e6400003dd900005c980000605500005e96000004960000fcfc0000e3f10000b19f000074420000f573000022ae000070d00000a32700006e27000098fc00002b1200006b3d0000552e0000458900000a8a0000e94f000067fa0000849a0000d6140000ea1a000024680000f10f00003e790000159200006b720000e983000082ac0000ea96000056da00001323000071b10000d2b30000488d0000e8c4000010c500002722000075450000f8d300001c9b0000de5c0000ffe300000ee2,
  0xc9760000443c000049df00007a81000021d800002f7c000065ed00005d3b000064cb00000c1b0000a1f10000748e00001fbe0000a00e0000eeb400004e45000006c40000878f0000ca98000000e0000024ba00006560000022c40000c388000025b70000dd5700000d43000026110000fb2e0000edaf0000b7e800003f05000076a70000eca400006e680000ca3700000f2f000061ba00008df00000fb2a0000bed1000024d30000d3f9000041160000554700005c460000d0de00008f390000ef510000de220000788b,
  0x965e0000091f000046ce00006ad30000407600000d9b000032aa000071ae000039e9000064c400007cdf000010eb000096460000bace0000ac3500005f330000e2e20000ed5c00006f5300004deb00006442000023dd0000e5b100003088000030e900002bf100004a1400009a890000e31b00004d530000c8c30000b9230000f19e000067810000958e0000cc500000108d0000b621000032bb000046b200002b850000e4c10000ce3f000008860000d9ee0000864300008d7a0000d49700008ac700004f1500006c4d,
  0x5dc600001a1000000ac400000e14000062ff00004157000072e1000078a300000270000091d80000cbfa0000e8e50000210c0000fc9e000053500000a94c000085550000032200003657000050760000b9f50000f4ae0000ec3000003f910000a7e500009ab800008136000092350000a8e30000652600002f4300005931000050b400008afb0000593e0000dd8e00000f3d00002ade0000fb1d0000e4d900006c55000061d0000018b50000ce01000062e800007586000075b300004e980000d84a00009ca10000e2c9,
  0xc3ad0000537100000ceb0000124200004ffb000043f700002f6c00000a0900003da10000daec000050fe0000545e000027980000ea1200005eb80000d38600005f910000e6720000252a000006870000e0cb0000bbcc0000b6520000d39100003a570000b0690000d4bd000049ce00002631000080190000bd0c000046180000651d0000dc7a000019e500005c7a000037150000f8c40000444f000001f6000001bd00000574000064300000804500006a270000f8ad0000c4c800006113000046aa00002a3f0000f8b9,
  0xac4e000043f000007b3000006e3f0000654a00000f9500001dd3000021a600003c6c000039ad00001f39000082f300001eec0000c2b800000aa0000032fb000078fe00006b130000b62900003f8b00009629000053330000d4370000cbe70000a5e4000089a800008d4d00005b270000d3f00000724700005a0f0000efac0000360300005df200005d480000301f000004b4000035f00000500a000093fc000011df000091b100005bb9000097f60000fcfb00005ba30000feff0000b0e800009a5f00002ed20000c8ac,
  0x4bf400003cc40000114b000028b000002ef8000002bf000000f400003d0c0000386000001483000089350000d5c90000dec600005d9f0000856f000010e300004920000099fb000005190000a8070000b930000085b60000f8e500005b750000cb150000c5ac0000b2190000864c000097260000c593000063b900001a700000b98400000b110000cda80000022b0000814b00006eed0000a6bc0000460600009e7600003a5a0000ec2c000057e0000022b100007b150000468800004a6b0000552f00003eb10000bd34,
  0xf3650000208000005ecc000036d800003efb000052700000287e00001b2500001c5600006d11000058760000cbc000006b830000093100006da200001b2d00009d980000174a00004233000019fd0000d9c6000070be000009e10000107900009bd20000a4210000d577000094ae0000228400009718000007f20000a145000033180000792d0000114800000b390000b6340000918c00008d26000065690000affd0000f1e8000030240000f2ba00003d9d0000a7d90000f41c0000cb550000e8a100009d4f0000fe63,
  0x2dcf00007391000076d70000766800007f6a000052e800006b910000739d00006b41000027b20000cb1b0000c02d0000d116000009ca00009ac600002e9e000009f500003f3d00004443000009c60000ccd50000840e0000281a0000f236000077e00000c01e000048660000d879000014760000067b000035a500008bd70000286b0000b9b60000298900007bd30000e6b00000eb0900000567000010dd00006a1a0000e01100004a3000000c240000d045000052750000288b0000111300001f050000e66800002f00,
  0xcebd000024640000463b00006d1400006a56000063a9000001100000240a000051570000b9180000956f0000aa840000c28600008b5a00006af9000015a500000ab80000673c000066060000e8b8000076c80000541400009fdd00005ae80000fe840000b5e40000a171000040900000695c0000e9770000ed39000016a80000d4cd00001e310000095a00001120000033500000437400008daa0000cee7000072f8000016ec00007a2b0000e3a30000f09e000024d600006cc700009ead0000e27e00004e620000796f,
  0xb6dc0000085700001dee00004d7100006c7500005679000030a4000029110000281500002b5000009a120000db440000f92c0000b04e0000a59400008f620000a110000008bc00002fb60000cab70000ed6b00009fc1000044f100002ae800005fbd00001fa80000817e0000920c00007746000074da000046650000e9960000a9f300005eb00000c0770000e9560000c58e000081eb00004399000008ee0000aab800005d5c0000bbaf0000ed940000455500006c520000b69600000323000080870000dbee0000571c,
  0xdbdc00001607000049050000519e000067f40000383a0000334800005181000055f000003615000066c90000087300005ed3000031f1000013330000fdde00005bda000092aa00007aa4000032d700005a600000749a0000689b0000c7320000f5230000d77e00009c40000002d5000087800000530300007ffc00000b5e0000a65c0000d1410000bf1e00007930000064de00009e790000af6100004ba40000162b00004afc00008e12000099ed0000145500001046000084f90000bc7e0000dad7000040a60000c3ab,
  0xbb390000405500007ee6000015fd000050c200003abd000075f700001e57000032040000dd1b0000c73400003214000086a0000030490000b1c80000df790000582e000098910000773d000068860000345300007adb0000ded5000060d700003ae30000bfc600001d690000a49500006a050000f06f000035320000887c00004cd9000050c6000037ec0000c6d60000f1880000c92600007198000078650000a2120000d43e0000dac100007799000042ce0000a67900005a8200006d9d0000c6ee0000690c000069f1,
  0x382200002071000022ec00007927000073510000134f000010f700003a3400001de600004116000040bb0000dd4a000045f1000028b40000b633000015180000fe4800005544000047fa000028170000228100000c28000076910000e01f0000f3cf0000e53d000034040000d77a0000fd090000836a000041b3000056b800005d700000f5920000996b0000ddb20000fb8c0000e3100000aefd00003f490000e9c400004c11000057d70000f6e100001d960000577d0000a8e700002a6f000076de000052b70000fc02,
  0x779b00005b0b0000249b000030260000793c000053d4000042460000156000002f3900002d46000041cc0000a93900008fe500003ae80000473c0000467f000024320000961d00002e6d000068f7000080e2000091c6000021d20000bc3d000048860000028d0000e4c3000080fb0000102b0000f42f00004e070000225a0000d34b0000d4090000c4ca0000d09e000025ad000093e700000e4500005a6b0000786500001f6d000024350000e842000005940000799c000016a50000f5a3000002a1000079d900005a27,
  0x9ad40000722b000071dc000058bf00001e42000030ab00006d9a0000330b0000170c00002671000095d6000023dc0000d73f00002109000012680000947100001e870000ed69000014fe0000f7d500001586000065b900008a4500006b30000065540000454700008d9600005259000071350000e64e000029400000e8210000c7760000a8bf00007ee00000b46b0000df610000e8af0000d42500002eea0000cdcb00006eae00005d890000b45b00001aca00003cf20000c0150000f25100007c2100000c1500008b02,
  0x362800003d2400002b7100006e3600000e0700005155000075ad000072d00000473c0000b01e000060e20000af8700009ecd000058b900009dbf0000b2360000e35c00008ab300007281000099840000eddd0000d6f8000036960000e7e60000b521000065dc0000e23c000055730000a3e70000793400002cb10000b8b60000ab1c00004cc600003a5100002753000053000000d8310000db3a00000392000065fb0000bc100000b5a100000641000098610000ac480000ed1c000062ef000067f50000794700009a9f,
  0x27de00004c7e0000324d000070190000165100005218000032b00000455100006681000011e7000090e80000e5e900006b130000391f0000f5aa0000ccb500000f510000ba140000597d0000f5bb000074a800008c2500001ebb0000e1aa000000d3000029f40000f0fe0000abbc000015c20000527d0000bbcb000042250000559d0000fec900004bc00000a8cc000045e50000da9f00000588000018a50000292700008dfb000075a10000d44a00003e1a0000d59d0000075f00003be6000065e400009c7d0000fd5c,
  0x15f100005df700000f0d000076b8000056ad000068d9000021db000020b600006651000004e50000725b0000a9300000d86d00003e0400002dec00000caf0000b93b0000ce60000063740000af0c0000dd0200006318000067290000e2f90000be6f000093e000007765000050da000030e60000d4350000dcea0000fe1f0000b8100000736c00007791000030b00000797d0000e1c0000048b6000094980000334d0000a4ef0000d09c000064310000940e000080110000e1e8000038ec000099110000ab0300005649,
  0xf0b000007ae300003bfd000076260000238c00003cc20000545e00005e6a0000423100006c180000b613000045850000fe920000d9ba0000d1b2000003ee000060e10000735a000038210000b73800005eeb00006d1f0000aab5000009cc0000272500009a010000751c00008a300000495400007f8900009de700003a2d00000d7e0000790d0000f7340000d8d60000a2150000cf210000273f0000813b000072fd00007c790000c38100002d1d0000d98c0000b8bd000013fe00004ca80000e90300000b1d0000b44d,
  0x3a4a00000764000078c4000048f1000021270000615e000041290000753b000058260000254100008d750000ee2d0000a85f000053c000003fdd00008e19000035160000159200001e4b0000514a000015e2000056310000c161000086e100008a46000036c6000033130000a2bc0000adf2000061a100005c0b000077340000fa2f0000cb6200006b670000920900000df900006a1f00004f4300008b2a000088460000292f0000757f0000f23400009d2f0000d22a000047690000bd8c00007f2800007f070000b002,
  0x49080000349e0000695e000040dd00006a6600007e04000010be0000160a000008230000424a0000515c00003be6000070120000c0a80000e89b0000d05a0000650d00006e550000ca1d000025bd000044aa00001d7d0000eb5a0000cbd10000c5880000cb64000045af00007d73000028280000f2b70000864300008200000092730000790f00006ad100000b2c0000290c0000a8530000d0d10000c57600009a5d000020100000c2c900002fdb0000e1250000a52900009b870000b44200007b9c00001bce0000e2a0,
  0x7ad000000efd00000f5b00002012000033f900002a3600001d5200002cc3000022e000004d8b00005d8a0000ca2d0000fcaf00003782000039f10000e4a20000656b000001bf0000d952000091d600000b2e00007b610000057d000007fc0000dad40000832600004246000033de00001bd40000ae4a0000c2ad00000c310000dd7e00006bbc000015c50000cbb10000b1e30000657000001a460000fe210000e830000059d10000a3fb000039c30000029b0000cc6100004a3b000091830000a4e90000c46f000071e9,
  0xcf820000451b0000732800005ad20000003f00006f0300004e8f00005254000003250000214a0000261e0000c99d00006d6d000045620000142a00008359000090da00008fa500000e7e0000988300006e3b0000c4f20000d680000083cc00000a7d000032440000845800004d51000057a00000705a0000f9c500004f7b000043780000d6f40000d5c7000036870000dd290000aafe00001ecf0000468800004f690000286a0000b4470000b20400005c730000a455000054a700007b8b000071030000975b0000ee88,
  0x77bc000040e8000036a800003e2b0000765600001d1a0000613b00005903000037100000d08d0000594600002eeb000051270000d3f100006d8a00006b7a0000c3270000d8ee00003a700000cf860000d9c100007ce800000ef70000c7000000e42800001b1b000061a90000210c0000c035000055dd0000472500002467000002bb0000cf810000306c00002b910000d43f00003c83000055df0000d454000092c70000db050000bdd90000e9a800006316000081c200005e3d00004b9c00008f0e0000bdcc0000fabe,
  0xbbc100006a53000018410000265d0000562000001d9f000022ee00007ad3000058c70000d12000009f9600006d6d00006abc0000f0a20000c6110000a1d30000df5700007fd70000ca0c0000f625000073050000dd2f000071ec000061a70000e6fe00009a370000cce90000504100002dab000090640000c4f700008f1600001ab0000011400000c8470000c47e000059840000e9ad00008bce0000d11700008d9d000075630000cf300000a7d50000dad80000e2110000bf90000065200000f21600001842000021c2,
  0x9bf70000307a000035bc000063e60000438400006655000019b200004436000003000000d452000006d10000035e0000a0b90000e06f000069e70000cdb1000034710000cbac00007bff0000855400006fdb00004b3e0000381f000072ca000050420000fa180000ee680000667400005520000058c1000041bd00009b8800000fa30000f624000027be0000a4a100008c09000059aa00006b2e0000d2ed0000b186000013920000bbb800004ecc0000ed560000dfed000075e700000e9800003dbb0000f3b300000fb8,
  0xf6c500006dbc00005d2a00004cfe0000083d00000317000008620000256e0000378900006dcc000086910000a0ec0000bde100008d9b0000b72200006b710000268e0000bd590000f6840000531b0000e601000098ec0000f1fa000085ab0000700700002a670000d8af000052f10000a29c00008650000012a10000b9850000c8820000584b0000f7710000d91500004c670000dedf0000b26a00007b42000037ef0000247500004b550000d24a000071730000b7fb000005210000e3b00000e79700008fe70000b071,
  0xc89500006e45000029ca000013b40000539d000065c7000056290000025000007828000057ea0000d28e00008c050000ed030000b00600004e450000a2c60000f33700000ded000098c50000dfa200001b0d000074d8000014c30000d86e0000802200006b6f000099930000dc08000041d30000337c0000b613000045950000f8e3000095b9000025af0000a26d00000ee60000ff8d00007ddd0000d7910000a51a00003ef80000ce1d000065e700002a4d0000e9c20000d21b0000ba8e000054360000cf4f000082be,
  0x947500002fba00002547000008870000742b00007da700005e1a000066de00003d6e00004d34000039e3000073fe00003276000018ca000001ed0000f0d300004f470000961c0000ea3d0000ae2f0000b0370000a612000050f50000bc70000094c0000003e2000032200000a9750000613300002af90000e0af0000207d0000e3730000f9cb00004a11000098610000dba30000637e0000ed520000571e00004b9900009d8800007fe20000f2f900006bab0000c50f000051d800004bdc0000262b00005e2600003059,
  0x9b520000147700002f74000020f40000453d00002bfc00005b6d000011780000705500006881000046410000b3140000638500000f540000b0fc0000a1f5000076490000e4640000eeea00002cb900007318000026d400001d8000004f85000066d0000011e90000637300009cc600008e59000034140000ea640000b3a70000ad0b0000383b00007a8c0000ad500000594a0000e4fd000068f7000063260000cbcc000042480000657e0000604d0000706f00006eb6000027a20000af360000b55a00000d9000006744,
  0x518300002a34000034d600007a5000006f9e0000434a00002b2e00004c50000070e50000bcc1000065b70000a353000015230000e41c000045b70000c2c50000baa20000f89b000082fa00005a4c00001125000047bc0000b48e0000d0fa0000f5f800001ef60000d37a00004fcc000015bf0000cf0e0000abb80000c3b900000f7e000020c2000008030000039c0000d4940000204e0000ae950000d62d0000611f000093ee0000549e00001a5200005f19000072130000407a0000add5000068b00000b33500003c02,
  0x214800004aef000002c300007b0e00001b13000018fc000049470000456600007ec000000c860000474d000048ac00007edf0000f16f0000a7a2000016e10000ebf70000f8d20000aac90000b34300002dee0000d0db0000c7670000348f0000a02700000d24000002bf0000395800009c1b000035a80000012d000043150000b1f30000869100001aa50000db600000e24d0000c23f0000aa1700001ea4000042aa000066e60000b84d0000a4b10000e999000025b500000b950000ec13000066900000cf93000098bc,
  0x47830000511b00000b0300006bcb00004c1c00006e2c00006e500000532900007945000068560000d8210000794400002d65000091310000c4ca0000f78e0000928e00007d3c0000cb2e0000bfd1000078ea000031300000f0ff0000ab170000e8b0000054380000931c00002e84000089590000be0d0000044d00009ca000001a2500003ea600004fda0000e5420000713a0000cb7e00006ffd000072f500007bf800009c8d0000d1c80000ec6b0000028b000068010000b1ac00006d9f0000d85c0000f0160000ae97,
  0xbf8900005d4c000003e000005f630000157c000053570000465700001b94000022a90000ccf0000022740000efcd00002a3e0000b69400004e0f00003d37000030d5000075f600008b440000eaa6000044de000056320000812800006a010000a2090000ec8f00005c810000da8e000006c20000b9870000f2770000a1cf0000c6fc0000f0460000f4bb00009526000041f6000044c90000aaae00008f3d0000fdd20000f114000040ce0000d35400005b3200005cb000008c510000ac5e000088620000f21200000c84,
  0x88cf0000021200003914000069110000116c0000477700000ed90000095f000013dd00005eba00009e530000fd1f0000f3ab00009a9400008a4f00000c5b00007b010000f4cf0000d07e00003e6a000057f700006a9a00002dd40000e2ec00000f14000050f50000d646000024e80000da3500007a260000f32f000096b20000122e00009fdd0000b5820000411e00003799000024ff00003afd00006e0700001110000048ed0000c7660000eccb0000b1980000d7e20000c98600002d340000ee2d00009c5e0000115b,
  0x144000066740000740000004374000028a700004ee700004fd400007b2d000072810000ad48000003a6000010ca0000c84500002e55000056c0000050e3000021940000977900005e62000012630000fd1f000091bd00007fec000073b30000f9ae000072a7000028080000d0df0000721c00007e480000168f00000c7700001ecd0000433b0000b8b20000e1e50000200a0000d940000082cb0000c1bf00005c78000069060000422000003c35000078d6000076b60000c3d40000688d00003bdd00005c3400005112,
  0x433b000015e300007d080000531b00004d670000728700006483000071d5000050100000c5b40000120e000061d800006c7d0000e80100000c7a000007de0000ad2c0000b1b400001ca9000026d80000e35f0000c931000010be000050fe0000d0360000af3200002cf30000618c0000a7660000f7b900000a52000087fd000039ca00008c4a0000b2100000cbdd00000d5d00008790000071b600005e970000f96d000050780000bb6b000067b000008b6c00005c8d0000343a000076690000f823000010e70000f1f5,
  0xecef0000498f00000b5900005ca000006f2800005a8d00001ae500006bf4000062eb00006a620000a9ff00007bb6000016fb00004d4f0000384b0000be460000de3100002a27000037600000a28a000062830000748400007feb00001c08000071270000ded700001aff0000c8020000b35a0000bd600000737b0000c88100000b55000098db00009661000074fe0000ea5c0000aa7400004bb3000075070000dead000085320000498e000004e10000438a0000898c0000548a00005a8c00006d9b000003200000979b,
  0xeef6000068bc00001c5700005319000018dc0000498600002012000072c70000353500009b7900008c7d0000261b00007a930000497900000f7e000056080000de2700006469000053c9000009b80000ee7900001ab4000044c8000048e10000ddeb0000e3370000099900007212000096fe0000ed450000294900007051000081de000000220000eafa0000ea8700000b9b000038780000e6d4000025de0000d118000005780000c6330000c75c0000b2d9000088d70000e98a000019cc000068ce00001a660000a209,
  0x47350000442900000da200007729000022260000653d0000618d000009d500007b620000118f0000a9db0000ea9500001d9b0000a6370000939600003469000052e500008028000020070000e59b0000839b0000f7ec0000f62900007d560000219f0000358d0000e85d0000843700007c9c0000d6940000cd8f000005cf00009418000016970000b42d00004c8f0000a4e400003f9700001a1a0000692d000004af0000762f0000538100004a3a000065bc000040f50000a4d500007b89000038f90000725000006540,
  0x3492000044b2000070ac00005ec000002af80000064f00004e9600002e140000750e0000e04900005a8f0000d9520000daf30000edc100002eb80000ce9d00002e430000571200005afc0000ce2000002a0a0000ae9700007874000028110000eb8d0000951700005df7000074830000ebe70000df45000056e50000ca3a0000e748000060f5000007510000d467000036c300001383000002a70000878c0000d9fa000054e70000d4860000a62d0000e5690000937b0000b09d00003f780000a1e90000929a00008830,
  0x3a500000121500002a6f00007a19000046dd0000069c000012ff000036b900004ed90000517f00008af70000fb060000caa000002d9a000076400000e58f000024ac000078d9000049e30000bc35000095f600001d3b000062e400000be1000059d300007c700000299e0000abff00002312000058610000aff700005b6100005d4a0000997c00009a820000d7f100004ed2000085760000c477000068390000cb5500004d310000d9e600008f700000b7ab00001108000037b70000b9980000df510000eb58000061ed,
  0x4f640000523100006509000000540000714a000072d800003c41000026a5000015c00000e7c60000d8930000331f0000288b0000b45000000b730000beff00003708000084100000f6260000caa50000071c0000253e0000646900008bfc000053660000b2830000385900009576000054cb000077530000341f0000ee390000df4a0000316600000f66000096d800003a3a000065a000007f1b000086ce000052220000804000005d290000d5470000981c00001b1700002cf000002a7b0000b2140000d4040000cd7a,
  0x4d8b000031370000607c0000368700007aeb00003c8300005c260000567e00004eca000046a20000503000002688000015d50000792e000097b9000005200000c55700007d18000036170000476b0000e23b0000efe30000b9d8000088f00000b9d00000b8c200006e6e000017150000174e0000c56d0000449a0000f28f0000c1fe000076fc0000c8230000d0310000f334000014a10000bf220000dcd80000569c000037ba00008103000014c7000073aa00005c3f000088d30000c98500006d7900007b02000013fe,
  0x8a5c00000a4800005dfc00006a63000065c3000049e800004bf100002c4f00003ac70000ea7a00001c330000b8bb000033bb000054f60000e745000079f90000bb97000086be000039670000e6d400001df80000ae18000090300000edc900003b2b0000e041000045540000dca40000937100003914000058190000c5d10000a0f700002c8a00001d4b00002b7100000a1c0000566a000027310000506700000132000094c200008218000041cd0000fad0000095fe0000eee1000086e20000b1a100009a7f00008932,
  0x95f60000361d0000481c00004b9d0000553500001063000038c100001ac5000022c500001a6a0000815d0000ebdc00000e470000f7020000940f0000bd5d0000bf0400000fb300002e830000c857000064ac000070ce0000d5380000c4ab0000d5380000fcfb0000dd4b00006ccb0000886a000070e40000aec000003387000017ad0000e1df0000a5b30000c2b900009bf90000726c00007bd60000ba5700004b0700005f700000faa90000531400000c86000087000000788b0000c17b000043f600002ec10000a776,
  0xf5680000021b00002abd00005abb000002c2000018610000075b00005cc200004cc60000c26400009cec00007fbe0000bff900000ba30000393500006f900000ecec00007cad0000d3db0000cfda0000d52d0000d96d0000f83f000077750000fb0300001ca70000e05c000068af0000f7220000ff220000d9bc0000a21700000f090000057e0000c0bf0000aa900000d63c000017260000cfbc0000d4760000d6e100008462000021cd000061ae00005f0f0000e78c00005f5600004b7600002ec50000bbcb00002b30,
  0x49b400004e5d00007e16000059fd0000649f00001d1800002ee1000014da0000747e00008d640000e98600005af600005b1800001e3f0000f0ac00006ad100006e0a000072cc0000579d00000c310000fc6e0000fb820000e9b30000a99c00008bd400001fe5000099ba00004be0000061bc000044480000daed000042900000e47d0000566b000061d900005eaa00001810000059bd0000b520000046a90000525f00006f630000f6f30000458c0000da390000587b0000f0dc0000807f000001b900004c700000e3b8,
  0xb35e000019c2000012af00005f6a0000094c00001c8f00002ee1000011cf00002d21000010f0000096d8000099c5000031db000016d50000a3fc0000ea0c0000e1190000c97b00001f7e0000e4c100000b56000031be0000cc9300009c870000b719000019c200000954000046950000f09a0000de7b0000e0fe00005bf70000b4b800008a6b0000992d0000313f0000af7600003f520000555500009b320000352a000055060000073e0000c0a20000aaf90000979c0000b6330000b860000067850000533a0000c126,
  0x9c6c00006ae50000306c00005e5000005557000040ba00007957000035be00005704000075430000b27b0000013200005d7400004e460000c37300001e04000062670000da1e0000e47400004dee00002fac00005648000058b900008b2000004c940000bb2400006e610000c1aa00002a6f0000ceae000059d40000b2bf0000878000001ee300006ee300008fdb000023d10000bb910000f22600002a100000114e000019f900007a8c000084c600001b1c0000585c0000fcca000030670000c5340000d10b00004ff2,
  0x6b37000044e600004de000001ffc000025b3000022bd000075f00000276b000007d60000d2e50000798a000074560000a1b60000eb0100009372000016700000f11100002b850000eaa60000e0e10000d74b0000b42d0000459600001f900000f13400006f460000908f0000520000003ad9000083660000101a0000edd400002a720000d30a0000c16e0000cfd30000059f00001bd900008f15000034da0000953900007f550000c3ef0000a65f000061ea000075380000ad8f0000faac0000275e0000da4a0000cb43,
  0x77ce00007716000016a200000b91000007e6000070d00000336a00002e5c000070f10000d48b000053c00000d22d0000a2bd000038e000005bfd00002038000045dc0000393100008bca00003fd1000094920000bc290000d1010000a3600000227c0000161e0000d31a0000aaf70000357c00007df600005b6f000078ae00001ad20000b5230000c1e7000054ba00002b050000bfda00006c9a00003beb00004358000022230000c5270000daf5000089a80000d4fc0000f82e0000c80d00006971000026ae000011e1,
  0xcd18000034d100000525000043e800004c0d000024b300006264000016a9000033310000d3520000d461000099c6000098c60000c7ca000079550000d2e100004dc60000fa5e000063cb00004b520000aea80000ddf50000246c00005ff70000e1b6000067c6000078b2000026330000ce7300003e120000725a00004974000000cd00009a22000002f300001f0300001c180000833f0000339200005b710000e4420000690600004394000048dc0000024f000026a30000fcc90000a9c9000082980000e448000044b1]

theorem ROWS_eq : ROWS = List.zipWith (fun p s => p + 2 ^ 1600 * s) PACKS SQES := by decide +kernel

/-- `Σ_i bytes(a)_i p_i`. -/
noncomputable def dotK {β : Type} (a : List Nat) : List Nat → Nat → (Nat → β) → β :=
  List.rec (fun _ s k => k s) (fun x _ ih p s k =>
    List.rec (k s) (fun p1 ps _ => List.rec (k s) (fun p2 ps _ =>
      fN (Nat.add s (Nat.add (Nat.mul (Nat.mod x 256) p1) (Nat.mul (Nat.div x 256) p2))) fun s => ih ps s k) ps) p) a

theorem dotK_eq {β : Type} (a p : List Nat) (s : Nat) (k : Nat → β) (h : p.length = 2 * a.length)
    (ha : ∀ v ∈ a, v < 65536) : dotK a p s k = k (s + dot (bytes a) p) := by
  induction a generalizing p s k with
  | nil =>
    show k s = _
    simp [bytes, dot]
  | cons x a ih =>
    match p, h with
    | p1 :: p2 :: ps, h =>
      show fN _ (fun s => dotK a ps s k) = _
      simp only [List.length_cons] at h
      rw [fN_eq, ih ps _ k (by omega) (fun v hv => ha v (by simp [hv]))]
      have hx := ha x (by simp)
      have e : bytes (x :: a) = x % 256 :: x / 256 :: bytes a := by
        simp only [bytes, List.flatMap_cons, List.cons_append, List.nil_append]
        rw [Nat.mod_eq_of_lt (show x / 256 < 256 by omega)]
      rw [e]
      simp only [dot]
      congr 1
      show s + (x % 256 * p1 + x / 256 * p2) + dot (bytes a) ps = _
      ring

/-- The first limbs of `s`, folded. -/
noncomputable def unpK {β : Type} (t : List Nat) : Nat → (List Nat → β) → β :=
  List.rec (fun _ k => k []) (fun t _ ih s k =>
    fN (foldF t (Nat.mod s 4294967296)) fun x => fN (Nat.div s 4294967296) fun s => ih s fun xs => k (x :: xs)) t

theorem unpK_eq {β : Type} (t : List Nat) (s : Nat) (k : List Nat → β) :
    unpK t s k = k (List.zipWith foldF t (unpackL t.length s)) := by
  induction t generalizing s k with
  | nil => rfl
  | cons t ts ih =>
    show fN _ (fun x => fN _ fun s => unpK ts s fun xs => k (x :: xs)) = _
    rw [fN_eq, fN_eq, ih]
    rfl

/-- Fifty limbs of 16 bits. -/
def Lim (l : List Nat) : Prop := l.length = 50 ∧ ∀ v ∈ l, v < 65536

theorem zip_fold {f g : Nat → Nat → Nat} (B : Nat) (h : ∀ t v, t < 256 → v < B → f t v = g t v) :
    ∀ (ts l : List Nat), (∀ t ∈ ts, t < 256) → (∀ v ∈ l, v < B) → List.zipWith f ts l = List.zipWith g ts l
  | [], _, _, _ => rfl
  | _ :: _, [], _, _ => rfl
  | t :: ts, v :: l, h1, h2 => by
    simp only [List.zipWith_cons_cons]
    rw [h t v (h1 t (by simp)) (h2 v (by simp)),
      zip_fold B h ts l (fun x hx => h1 x (by simp [hx])) (fun x hx => h2 x (by simp [hx]))]

theorem zip_lt {f : Nat → Nat → Nat} {B C D : Nat} (h : ∀ t v, t < B → v < C → f t v < D) :
    ∀ (ts l : List Nat), (∀ t ∈ ts, t < B) → (∀ v ∈ l, v < C) → ∀ v ∈ List.zipWith f ts l, v < D
  | [], _, _, _ => by simp
  | _ :: _, [], _, _ => by simp
  | t :: ts, v :: l, h1, h2 => by
    simp only [List.zipWith_cons_cons, List.mem_cons]
    rintro x (rfl | hx)
    · exact h t v (h1 t (by simp)) (h2 v (by simp))
    · exact zip_lt h ts l (fun x hx => h1 x (by simp [hx])) (fun x hx => h2 x (by simp [hx])) x hx

theorem unpackL_lt (n s : Nat) : ∀ v ∈ unpackL n s, v < 4294967296 := by
  induction n generalizing s with
  | zero => simp [unpackL]
  | succ n ih =>
    simp only [unpackL, List.mem_cons]
    rintro v (rfl | hv)
    · exact Nat.mod_lt _ (by norm_num)
    · exact ih _ v hv

theorem unpackL_mod (n s a : Nat) : unpackL n (s + 4294967296 ^ n * a) = unpackL n s := by
  induction n generalizing s with
  | zero => rfl
  | succ n ih =>
    simp only [unpackL]
    have e : 4294967296 ^ (n + 1) * a = 4294967296 * (4294967296 ^ n * a) := by rw [pow_succ]; ring
    rw [e, Nat.add_mul_mod_self_left, Nat.add_mul_div_left _ _ (by norm_num), ih]

theorem TLIT_lt : ∀ t ∈ TLIT, t < 256 := by decide +kernel

/-- `mod_mul_rns_2u16`. -/
noncomputable def mulK {β : Type} (a b : List Nat) (k : List Nat → β) : β :=
  zipK Nat.mul a b fun l => zipK foldF TLIT l fun l =>
    dotK l ROWS 0 fun s => fN (Nat.add (Nat.mod s (Nat.pow 2 1600))
      (Nat.mul (Nat.div (Nat.div s (Nat.pow 2 1600)) 65536) PCOR)) fun s => unpK TLIT s k

theorem dot_rows (N : Nat) : ∀ (b p s : List Nat), p.length = b.length → s.length = b.length →
    dot b (List.zipWith (fun p s => p + N * s) p s) = dot b p + N * dot b s
  | [], p, s, h1, h2 => by
    rw [List.length_eq_zero_iff.1 h1, List.length_eq_zero_iff.1 h2]
    rfl
  | x :: b, p :: ps, s :: ss, h1, h2 => by
    simp only [List.zipWith_cons_cons, dot]
    rw [dot_rows N b ps ss (by simpa using h1) (by simpa using h2)]
    ring
  | _ :: _, [], _, h, _ => by simp at h
  | _ :: _, _ :: _, [], _, h => by simp at h

theorem dot_le (A B : Nat) : ∀ (b p : List Nat), (∀ v ∈ b, v ≤ A) → (∀ v ∈ p, v ≤ B) → dot b p ≤ b.length * (A * B)
  | [], p, _, _ => by simp [dot]
  | x :: b, [], _, _ => by simp [dot]
  | x :: b, p :: ps, h1, h2 => by
    simp only [dot, List.length_cons]
    have := dot_le A B b ps (fun v hv => h1 v (by simp [hv])) (fun v hv => h2 v (by simp [hv]))
    have h3 : x * p ≤ A * B := Nat.mul_le_mul (h1 x (by simp)) (h2 p (by simp))
    rw [Nat.add_mul]
    omega

theorem bytes_le (l : List Nat) : ∀ v ∈ bytes l, v ≤ 255 := by
  intro v hv
  simp only [bytes, List.mem_flatMap, List.mem_cons, List.not_mem_nil, or_false] at hv
  obtain ⟨x, -, rfl | rfl⟩ := hv <;> omega

theorem PACKS_le : PACKS.length = 100 ∧ SQES.length = 100 ∧ ∀ v ∈ PACKS, v ≤ 2 ^ 1585 := by decide +kernel

theorem split_rows (A B N C : Nat) (h : A < N) : Nat.add (Nat.mod (A + N * B) N)
    (Nat.mul (Nat.div (Nat.div (A + N * B) N) 65536) C) = A + B / 65536 * C := by
  show (A + N * B) % N + (A + N * B) / N / 65536 * C = _
  rw [Nat.add_mul_mod_self_left, Nat.mod_eq_of_lt h, Nat.add_mul_div_left _ _ (by omega), Nat.div_eq_of_lt h,
    Nat.zero_add]

attribute [local irreducible] PACKS SQES PCOR TLIT ROWS P

set_option exponentiation.threshold 2000 in
theorem mulK_eq {β : Type} {a b : List Nat} (k : List Nat → β) (ha : Lim a) (hb : Lim b) :
    mulK a b k = k (modMul (exactMatrix P) a b) := by
  obtain ⟨hP, hS, hB⟩ := PACKS_le
  rw [fastMul_eq a b ha.1 hb.1]
  unfold mulK fastMul
  simp only [zipK_eq]
  have hz : List.zipWith Nat.mul a b = List.zipWith (fun x y => x * y % 4294967296) a b := by
    have : ∀ (a b : List Nat), (∀ v ∈ a, v < 65536) → (∀ v ∈ b, v < 65536) →
        List.zipWith Nat.mul a b = List.zipWith (fun x y => x * y % 4294967296) a b := by
      intro a
      induction a with
      | nil => intro b _ _; rfl
      | cons x a ih =>
        intro b h1 h2
        cases b with
        | nil => rfl
        | cons y b =>
          simp only [List.zipWith_cons_cons]
          rw [ih b (fun v hv => h1 v (by simp [hv])) (fun v hv => h2 v (by simp [hv]))]
          have h3 := h1 x (by simp)
          have h4 := h2 y (by simp)
          have : x * y < 4294967296 := by
            have : x * y ≤ 65535 * 65535 := Nat.mul_le_mul (by omega) (by omega)
            omega
          rw [Nat.mod_eq_of_lt this]
          rfl
    exact this a b ha.2 hb.2
  have hlt : ∀ v ∈ List.zipWith (fun x y => x * y % 4294967296) a b, v < 2 ^ 32 :=
    zip_lt (B := 65536) (C := 65536) (fun _ _ _ _ => Nat.mod_lt _ (by norm_num)) a b ha.2 hb.2
  rw [hz, zip_fold (2 ^ 32) foldF_eq _ _ TLIT_lt hlt]
  have hl : (List.zipWith foldRed TLIT (List.zipWith (fun x y => x * y % 4294967296) a b)).length = 50 := by
    rw [List.length_zipWith, List.length_zipWith, TLIT_len, ha.1, hb.1]; rfl
  have hl2 := zip_lt foldRed_lt TLIT _ TLIT_lt hlt
  generalize List.zipWith foldRed TLIT (List.zipWith (fun x y => x * y % 4294967296) a b) = l at hl hl2
  have hR : ROWS.length = 100 := by rw [ROWS_eq, List.length_zipWith, hP, hS]; rfl
  rw [dotK_eq l ROWS 0 _ (by rw [hR, hl]) hl2, fN_eq, unpK_eq, Nat.zero_add, ROWS_eq,
    dot_rows _ _ _ _ (by rw [hP, bytes_len, hl]) (by rw [hS, bytes_len, hl]), TLIT_len]
  have hd : dot (bytes l) PACKS < 2 ^ 1600 := by
    refine lt_of_le_of_lt (dot_le 255 (2 ^ 1585) _ _ (bytes_le l) hB) ?_
    rw [bytes_len, hl]
    decide +kernel
  unfold fastRed
  rw [zip_fold (2 ^ 32) foldF_eq _ _ TLIT_lt (unpackL_lt _ _)]
  exact congrArg (fun s => k (List.zipWith foldRed TLIT (unpackL 50 s))) (split_rows _ _ _ PCOR hd)

theorem mul_lim {a b : List Nat} (ha : Lim a) (hb : Lim b) : Lim (modMul (exactMatrix P) a b) := by
  rw [fastMul_eq a b ha.1 hb.1]
  unfold fastMul fastRed
  constructor
  · rw [List.length_zipWith, TLIT_len]
    have : ∀ n s, (unpackL n s).length = n := by
      intro n
      induction n with
      | zero => intro s; rfl
      | succ n ih => intro s; simp [unpackL, ih]
    rw [this]
    rfl
  · exact zip_lt foldRed_lt TLIT _ TLIT_lt (unpackL_lt _ _)

/-! ## Sums -/

/-- The values of `MODULI_SUB` and `TWIST_D_RNS`. -/
def SUBLIT : List Nat := [36864, 20259, 17715, 437, 64255, 15817, 43633, 47529, 10453, 51019, 59133, 59644, 48737,
    52307, 46623, 34410, 37300, 18175, 39889, 60562, 37848, 24815, 2482, 2189, 15282, 25544, 59141, 19906, 42938,
    43351, 13235, 48600, 52456, 15817, 23232, 8793, 52307, 27425, 12458, 61443, 8344, 17648, 1755, 9277, 8054,
    28258, 23593, 6427, 18437, 24150]
def DLIT : List Nat := [28683, 18184, 59186, 43791, 33069, 20780, 26931, 17930, 29410, 21823, 853, 29669, 40363,
    4116, 6454, 38982, 2095, 31274, 2625, 9168, 31789, 31709, 16883, 26257, 45321, 51650, 40429, 16738, 35386,
    8480, 64173, 42622, 9775, 9229, 51584, 5354, 4551, 15757, 50330, 29713, 38832, 41659, 3283, 31945, 31917, 1814,
    13560, 9278, 6214, 9894]

theorem SUBLIT_eq : MODULI_SUB = SUBLIT := by decide +kernel
theorem DLIT_eq : TWIST_D_RNS = DLIT := by decide +kernel
theorem SUBLIT_lt : SUBLIT.length = 50 ∧ ∀ v ∈ SUBLIT, v < 65536 := by decide +kernel
theorem DLIT_lim : Lim DLIT := by unfold Lim; decide +kernel

attribute [local irreducible] SUBLIT DLIT MODULI RNS_T MODULI_SUB TWIST_D_RNS BIGM FACTORS TOTAL exactMatrix modMul

/-- Fifty limbs of 17 bits. -/
def Lim' (l : List Nat) : Prop := l.length = 50 ∧ ∀ v ∈ l, v < 131072

theorem Lim.to {l : List Nat} (h : Lim l) : Lim' l := ⟨h.1, fun v hv => (h.2 v hv).trans (by norm_num)⟩

noncomputable def negF (s a : Nat) : Nat := Nat.rec s (fun _ _ => Nat.sub (Nat.add s 65536) a) a
noncomputable def negZF (s a : Nat) : Nat := Nat.rec 0 (fun _ _ => Nat.sub (Nat.add s 65536) a) a

theorem negF_eq (s a : Nat) (hs : s < 65536) (ha : a < 65536) : negF s a = negLimb s a := by
  unfold negF negLimb
  cases a with
  | zero => show s = _; omega
  | succ n => show s + 65536 - (n + 1) = _; omega

theorem negZF_eq (s a : Nat) (hs : s < 65536) (ha : a < 65536) : negZF s a = negLimbZ s a := by
  unfold negZF negLimbZ
  cases a with
  | zero => rfl
  | succ n =>
    rw [if_pos (by omega)]
    show s + 65536 - (n + 1) = _
    omega

theorem negF_lt (s a : Nat) (hs : s < 65536) (_ : a < 65536) : negF s a < 131072 := by
  unfold negF
  cases a with
  | zero => exact hs.trans (by norm_num)
  | succ n => show s + 65536 - (n + 1) < _; omega

theorem negZF_lt (s a : Nat) (hs : s < 65536) (_ : a < 65536) : negZF s a < 131072 := by
  unfold negZF
  cases a with
  | zero => show 0 < 131072; norm_num
  | succ n => show s + 65536 - (n + 1) < _; omega

theorem zip_congr {f g : Nat → Nat → Nat} {B C : Nat} (h : ∀ t v, t < B → v < C → f t v = g t v) :
    ∀ (ts l : List Nat), (∀ t ∈ ts, t < B) → (∀ v ∈ l, v < C) → List.zipWith f ts l = List.zipWith g ts l
  | [], _, _, _ => rfl
  | _ :: _, [], _, _ => rfl
  | t :: ts, v :: l, h1, h2 => by
    simp only [List.zipWith_cons_cons]
    rw [h t v (h1 t (by simp)) (h2 v (by simp)),
      zip_congr h ts l (fun x hx => h1 x (by simp [hx])) (fun x hx => h2 x (by simp [hx]))]

theorem negK_eq {β : Type} {a : List Nat} (k : List Nat → β) (ha : Lim a) : zipK negF SUBLIT a k = k (negate a) := by
  rw [zipK_eq, zip_congr negF_eq _ _ SUBLIT_lt.2 ha.2]
  unfold negate
  rw [SUBLIT_eq]

theorem negZK_eq {β : Type} {a : List Nat} (k : List Nat → β) (ha : Lim a) :
    zipK negZF SUBLIT a k = k (negateZ a) := by
  rw [zipK_eq, zip_congr negZF_eq _ _ SUBLIT_lt.2 ha.2]
  unfold negateZ
  rw [SUBLIT_eq]

theorem neg_lim {a : List Nat} (ha : Lim a) : Lim' (negate a) := by
  unfold negate
  rw [SUBLIT_eq, ← zip_congr negF_eq _ _ SUBLIT_lt.2 ha.2]
  exact ⟨by rw [List.length_zipWith, SUBLIT_lt.1, ha.1]; rfl, zip_lt negF_lt _ _ SUBLIT_lt.2 ha.2⟩

theorem negZ_lim {a : List Nat} (ha : Lim a) : Lim' (negateZ a) := by
  unfold negateZ
  rw [SUBLIT_eq, ← zip_congr negZF_eq _ _ SUBLIT_lt.2 ha.2]
  exact ⟨by rw [List.length_zipWith, SUBLIT_lt.1, ha.1]; rfl, zip_lt negZF_lt _ _ SUBLIT_lt.2 ha.2⟩

theorem add_lt {A B : Nat} (x y : Nat) (hx : x < A) (hy : y < B) : Nat.add x y < A + B := by
  show x + y < _
  omega

theorem zadd_eq {A B : Nat} (h : A + B ≤ 2 ^ 32) (w v : List Nat) (hw : ∀ x ∈ w, x < A) (hv : ∀ x ∈ v, x < B) :
    List.zipWith (fun x y => (x + y) % 2 ^ 32) w v = List.zipWith Nat.add w v :=
  zip_congr (fun x y hx hy => Nat.mod_eq_of_lt (by omega)) w v hw hv

/-- `add_sub_rns_var` with two operands. -/
noncomputable def addK {β : Type} (v w : List Nat) (k : List Nat → β) : β :=
  zipK Nat.add w v fun l => zipK foldG TLIT l k

/-- `add_sub_rns_var` with three operands. -/
noncomputable def add3K {β : Type} (v w x : List Nat) (k : List Nat → β) : β :=
  zipK Nat.add w v fun l => zipK Nat.add x l fun l => zipK foldG TLIT l k

theorem addK_spec {v w : List Nat} (hv : Lim' v) (hw : Lim' w) :
    (∀ {β : Type} (k : List Nat → β), addK v w k = k (addSubVals v [w])) ∧ Lim (addSubVals v [w]) := by
  have h1 : ∀ x ∈ List.zipWith Nat.add w v, x < 2 ^ 24 := by
    intro x hx
    exact (zip_lt add_lt w v hw.2 hv.2 x hx).trans (by norm_num)
  have e : addSubVals v [w] = List.zipWith foldG TLIT (List.zipWith Nat.add w v) := by
    unfold addSubVals
    rw [List.foldl_cons, List.foldl_nil, zadd_eq (by norm_num) w v hw.2 hv.2, TLIT_eq,
      zip_fold (2 ^ 24) foldG_eq _ _ TLIT_lt h1]
  refine ⟨fun k => ?_, ?_⟩
  · unfold addK
    rw [zipK_eq, zipK_eq, e]
  · rw [e, zip_fold (2 ^ 24) foldG_eq _ _ TLIT_lt h1]
    refine ⟨?_, zip_lt foldAdd_lt _ _ TLIT_lt h1⟩
    rw [List.length_zipWith, List.length_zipWith, TLIT_len, hv.1, hw.1]
    rfl

theorem add3K_spec {v w x : List Nat} (hv : Lim' v) (hw : Lim' w) (hx : Lim' x) :
    (∀ {β : Type} (k : List Nat → β), add3K v w x k = k (addSubVals v [w, x])) ∧ Lim (addSubVals v [w, x]) := by
  have h0 := zip_lt add_lt w v hw.2 hv.2
  have h1 : ∀ y ∈ List.zipWith Nat.add x (List.zipWith Nat.add w v), y < 2 ^ 24 := by
    intro y hy
    exact (zip_lt add_lt x _ hx.2 h0 y hy).trans (by norm_num)
  have e : addSubVals v [w, x] = List.zipWith foldG TLIT (List.zipWith Nat.add x (List.zipWith Nat.add w v)) := by
    unfold addSubVals
    rw [List.foldl_cons, List.foldl_cons, List.foldl_nil, zadd_eq (by norm_num) w v hw.2 hv.2,
      zadd_eq (by norm_num) x _ hx.2 h0, TLIT_eq, zip_fold (2 ^ 24) foldG_eq _ _ TLIT_lt h1]
  refine ⟨fun k => ?_, ?_⟩
  · unfold add3K
    rw [zipK_eq, zipK_eq, zipK_eq, e]
  · rw [e, zip_fold (2 ^ 24) foldG_eq _ _ TLIT_lt h1]
    refine ⟨?_, zip_lt foldAdd_lt _ _ TLIT_lt h1⟩
    rw [List.length_zipWith, List.length_zipWith, List.length_zipWith, TLIT_len, hv.1, hw.1, hx.1]
    rfl

/-! ## Points -/

/-- The first limb is not zero. -/
noncomputable def hdK (l : List Nat) (b : Bool) : Bool :=
  List.rec false (fun x _ _ => Nat.rec false (fun _ _ => b) x) l

/-- The first limb is not zero, or all limbs are zero. -/
noncomputable def zokK (l : List Nat) (b : Bool) : Bool :=
  List.rec false (fun x _ _ => Nat.rec (Bool.rec false b (l.all fun v => Nat.beq v 0)) (fun _ _ => b) x) l

theorem hdK_true {l : List Nat} {b : Bool} (hl : Lim l) (h : hdK l b = true) : nzB l = true ∧ b = true := by
  match l, hl, h with
  | 0 :: l, hl, h => cases h
  | (n + 1) :: l, hl, h =>
    refine ⟨?_, h⟩
    unfold nzB
    rw [Bool.not_eq_true', List.all_eq_false]
    refine ⟨0, by simp, ?_⟩
    have := hl.2 (n + 1) (by simp)
    rw [md_zero, List.getD_cons_zero, Nat.mod_eq_of_lt this]
    simp

theorem zokK_true {l : List Nat} {b : Bool} (hl : Lim l) (h : zokK l b = true) : zOkB l = true ∧ b = true := by
  match l, hl, h with
  | [], hl, h => cases h
  | 0 :: l, hl, h =>
    have h' : (Bool.rec false b ((0 :: l).all fun v => Nat.beq v 0) : Bool) = true := h
    cases ha : (0 :: l).all fun v => Nat.beq v 0 with
    | false => rw [ha] at h'; cases h'
    | true =>
      rw [ha] at h'
      refine ⟨?_, h'⟩
      unfold zOkB
      rw [Bool.or_eq_true, decide_eq_true_eq]
      left
      rw [List.eq_replicate_iff]
      refine ⟨hl.1, fun v hv => ?_⟩
      exact Nat.eq_of_beq_eq_true (List.all_eq_true.1 ha v hv)
  | (n + 1) :: l, hl, h =>
    refine ⟨?_, h⟩
    unfold zOkB
    simp

/-- A packed point with 16-bit limbs. -/
def LimPt (p : Pt) : Prop := Lim p.1 ∧ Lim p.2.1 ∧ Lim p.2.2.1 ∧ Lim p.2.2.2

/-- `padd_rns_twisted_pack` with the domain check. -/
noncomputable def paddK (p q : Pt) (k : Pt → Bool) : Bool :=
  mulK p.1 q.1 fun a => mulK p.2.1 q.2.1 fun b => mulK p.2.2.1 q.2.2.1 fun d => mulK p.2.2.2 q.2.2.2 fun c =>
  addK p.1 p.2.1 fun e1 => addK q.1 q.2.1 fun e2 => mulK e1 e2 fun e3 => mulK c DLIT fun c =>
  zokK a (zokK b (zokK c (
  zipK negZF SUBLIT a fun na => zipK negZF SUBLIT b fun nb => zipK negZF SUBLIT c fun nc =>
  add3K e3 na nb fun e => addK d nc fun f => addK d c fun g => addK a b fun h =>
  mulK e f fun x => mulK g h fun y => mulK f g fun z => mulK e h fun t => k (x, y, z, t))))

theorem paddK_true {p q : Pt} {k : Pt → Bool} (hp : LimPt p) (hq : LimPt q) (h : paddK p q k = true) :
    rnsAddOk (exactMatrix P) p q = true ∧ LimPt (paddTwisted (exactMatrix P) p q) ∧
      k (paddTwisted (exactMatrix P) p q) = true := by
  obtain ⟨x1, y1, z1, t1⟩ := p
  obtain ⟨x2, y2, z2, t2⟩ := q
  obtain ⟨hx1, hy1, hz1, ht1⟩ := hp
  obtain ⟨hx2, hy2, hz2, ht2⟩ := hq
  unfold paddK at h
  dsimp only at hx1 hy1 hz1 ht1 hx2 hy2 hz2 ht2 h
  have ha := mul_lim hx1 hx2
  have hb := mul_lim hy1 hy2
  have hd := mul_lim hz1 hz2
  have hc0 := mul_lim ht1 ht2
  have hc := mul_lim hc0 DLIT_lim
  have he1 := addK_spec hx1.to hy1.to
  have he2 := addK_spec hx2.to hy2.to
  have he3 := mul_lim he1.2 he2.2
  have he := add3K_spec he3.to (negZ_lim ha) (negZ_lim hb)
  have hf := addK_spec hd.to (negZ_lim hc)
  have hg := addK_spec hd.to hc.to
  have hh := addK_spec ha.to hb.to
  rw [mulK_eq _ hx1 hx2, mulK_eq _ hy1 hy2, mulK_eq _ hz1 hz2, mulK_eq _ ht1 ht2, he1.1, he2.1,
    mulK_eq _ he1.2 he2.2, mulK_eq _ hc0 DLIT_lim] at h
  obtain ⟨z1', h⟩ := zokK_true ha h
  obtain ⟨z2', h⟩ := zokK_true hb h
  obtain ⟨z3', h⟩ := zokK_true hc h
  rw [negZK_eq _ ha, negZK_eq _ hb, negZK_eq _ hc, he.1, hf.1, hg.1, hh.1, mulK_eq _ he.2 hf.2, mulK_eq _ hg.2 hh.2,
    mulK_eq _ hf.2 hg.2, mulK_eq _ he.2 hh.2] at h
  refine ⟨?_, ?_, ?_⟩
  · unfold rnsAddOk
    dsimp only
    rw [z1', z2', DLIT_eq, z3']
    rfl
  · unfold paddTwisted
    dsimp only
    rw [DLIT_eq]
    exact ⟨mul_lim he.2 hf.2, mul_lim hg.2 hh.2, mul_lim hf.2 hg.2, mul_lim he.2 hh.2⟩
  · unfold paddTwisted
    dsimp only
    rw [DLIT_eq]
    exact h

/-- `pdul_rns_twisted_pack` with the domain check. -/
noncomputable def pdulK (p : Pt) (k : Pt → Bool) : Bool :=
  hdK p.1 (hdK p.2.1 (hdK p.2.2.1 (
  addK p.1 p.2.1 fun et => mulK p.1 p.1 fun a => mulK p.2.1 p.2.1 fun b => mulK p.2.2.1 p.2.2.1 fun ct =>
  mulK et et fun et2 =>
  zipK negF SUBLIT a fun na => zipK negF SUBLIT b fun nb => zipK negF SUBLIT ct fun nc =>
  add3K et2 na nb fun e => addK b na fun g => add3K g nc nc fun f => addK na nb fun h =>
  mulK e f fun x => mulK g h fun y => mulK f g fun z => mulK e h fun t => k (x, y, z, t))))

theorem pdulK_true {p : Pt} {k : Pt → Bool} (hp : LimPt p) (h : pdulK p k = true) :
    rnsDoubleOk p = true ∧ LimPt (pdulTwisted (exactMatrix P) p) ∧ k (pdulTwisted (exactMatrix P) p) = true := by
  obtain ⟨x1, y1, z1, t1⟩ := p
  obtain ⟨hx1, hy1, hz1, ht1⟩ := hp
  unfold pdulK at h
  dsimp only at hx1 hy1 hz1 ht1 h
  obtain ⟨n1, h⟩ := hdK_true hx1 h
  obtain ⟨n2, h⟩ := hdK_true hy1 h
  obtain ⟨n3, h⟩ := hdK_true hz1 h
  have het := addK_spec hx1.to hy1.to
  have ha := mul_lim hx1 hx1
  have hb := mul_lim hy1 hy1
  have hct := mul_lim hz1 hz1
  have het2 := mul_lim het.2 het.2
  have he := add3K_spec het2.to (neg_lim ha) (neg_lim hb)
  have hg := addK_spec hb.to (neg_lim ha)
  have hf := add3K_spec hg.2.to (neg_lim hct) (neg_lim hct)
  have hh := addK_spec (neg_lim ha) (neg_lim hb)
  rw [het.1, mulK_eq _ hx1 hx1, mulK_eq _ hy1 hy1, mulK_eq _ hz1 hz1, mulK_eq _ het.2 het.2, negK_eq _ ha, negK_eq _ hb,
    negK_eq _ hct, he.1, hg.1, hf.1, hh.1, mulK_eq _ he.2 hf.2, mulK_eq _ hg.2 hh.2, mulK_eq _ hf.2 hg.2,
    mulK_eq _ he.2 hh.2] at h
  refine ⟨?_, ⟨mul_lim he.2 hf.2, mul_lim hg.2 hh.2, mul_lim hf.2 hg.2, mul_lim he.2 hh.2⟩, h⟩
  unfold rnsDoubleOk
  dsimp only
  rw [n1, n2, n3]
  rfl

/-- `n` steps of `window_merge` with one-bit windows that all have the sum `w`. -/
noncomputable def mergeK (w : Pt) (n : Nat) : Pt → (Pt → Bool) → Bool :=
  Nat.rec (fun r k => k r) (fun _ ih r k => pdulK r fun r => paddK r w fun r => ih r k) n

/-- One step with the instrumented operations. -/
def mergeStep (w : Pt) (r : Pt × Bool) : Pt × Bool :=
  (checkedRns (exactMatrix P)).padd ((checkedRns (exactMatrix P)).pdul r) (w, true)

theorem padd_checked {p q : Pt} (h : rnsAddOk (exactMatrix P) p q = true) :
    (checkedRns (exactMatrix P)).padd (p, true) (q, true) = (paddTwisted (exactMatrix P) p q, true) := by
  show (paddTwisted (exactMatrix P) p q, true && true && rnsAddOk (exactMatrix P) p q) = _
  rw [h]
  rfl

theorem pdul_checked {p : Pt} (h : rnsDoubleOk p = true) :
    (checkedRns (exactMatrix P)).pdul (p, true) = (pdulTwisted (exactMatrix P) p, true) := by
  show (pdulTwisted (exactMatrix P) p, true && rnsDoubleOk p) = _
  rw [h]
  rfl

theorem mergeK_true {w : Pt} (hw : LimPt w) (n : Nat) : ∀ {r : Pt} {k : Pt → Bool}, LimPt r →
    mergeK w n r k = true → ∃ q, (mergeStep w)^[n] (r, true) = (q, true) ∧ LimPt q ∧ k q = true := by
  induction n with
  | zero => exact fun {r k} hr h => ⟨r, rfl, hr, h⟩
  | succ n ih =>
    intro r k hr h
    have h' : pdulK r (fun r => paddK r w fun r => mergeK w n r k) = true := h
    obtain ⟨h1, h2, h3⟩ := pdulK_true hr h'
    obtain ⟨h4, h5, h6⟩ := paddK_true h2 hw h3
    obtain ⟨q, e, hq⟩ := ih h5 h6
    refine ⟨q, ?_, hq⟩
    rw [Function.iterate_succ_apply]
    unfold mergeStep at e ⊢
    rw [pdul_checked h1, padd_checked h4]
    exact e

/-- Equality of two lists. -/
noncomputable def eqL (a : List Nat) : List Nat → Bool :=
  List.rec (fun b => List.rec true (fun _ _ _ => false) b) (fun x _ ih b => List.rec false (fun y ys _ =>
    Bool.rec false (ih ys) (Nat.beq x y)) b) a

theorem eqL_true {a b : List Nat} (h : eqL a b = true) : a = b := by
  induction a generalizing b with
  | nil =>
    cases b with
    | nil => rfl
    | cons y b => cases h
  | cons x a ih =>
    cases b with
    | nil => cases h
    | cons y b =>
      have h' : (Bool.rec false (eqL a b) (Nat.beq x y) : Bool) = true := h
      cases hb : Nat.beq x y with
      | false => rw [hb] at h'; cases h'
      | true => rw [hb] at h'; rw [Nat.eq_of_beq_eq_true hb, ih h']

/-- Equality of two points. -/
noncomputable def eqPt (p q : Pt) : Bool :=
  Bool.rec false (Bool.rec false (Bool.rec false (eqL p.2.2.2 q.2.2.2) (eqL p.2.2.1 q.2.2.1)) (eqL p.2.1 q.2.1))
    (eqL p.1 q.1)

theorem eqPt_true {p q : Pt} (h : eqPt p q = true) : p = q := by
  unfold eqPt at h
  cases h1 : eqL p.1 q.1 with
  | false => rw [h1] at h; cases h
  | true =>
    rw [h1] at h
    dsimp only at h
    cases h2 : eqL p.2.1 q.2.1 with
    | false => rw [h2] at h; cases h
    | true =>
      rw [h2] at h
      dsimp only at h
      cases h3 : eqL p.2.2.1 q.2.2.1 with
      | false => rw [h3] at h; cases h
      | true =>
        rw [h3] at h
        exact Prod.ext (eqL_true h1) (Prod.ext (eqL_true h2) (Prod.ext (eqL_true h3) (eqL_true h)))

theorem chunk {w r q : Pt} {n : Nat} (hw : LimPt w) (hr : LimPt r) (h : mergeK w n r (fun x => eqPt x q) = true) :
    (mergeStep w)^[n] (r, true) = (q, true) ∧ LimPt q := by
  obtain ⟨x, h1, h2, h3⟩ := mergeK_true hw n hr h
  obtain rfl := eqPt_true h3
  exact ⟨h1, h2⟩

/-- The sum of a window of one bit set, with one point. -/
noncomputable def windowK (b p : Pt) (k : Pt → Bool) : Bool :=
  paddK b p fun u => paddK b u fun t => hdK t.1 (paddK b t fun s => paddK b s k)

end Verif.EcRns
