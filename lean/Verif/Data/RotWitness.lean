import Verif.Lemmas.MillerEval
import Verif.Spec.Sha256

/-! Data of the honest rotation of `Lemmas/RotWitness.lean`, generated by tools/gen_rot_witness.py.  Every fact about
these literals is checked by the kernel there. -/

namespace Spark.Rot
open NC

/-- abscissas of the new keys -/
@[irreducible] def kx : List ℕ := [0x17f1d3a73197d7942695638c4fa9ac0fc3688c4f9774b905a14e3a3f171bac586c55e83ff97a1aeffb3af00adb22c6bb,
  0x572cbea904d67468808c8eb50a9450c9721db309128012543902d0ac358a62ae28f75bb8f1c7c42c39a8c5529bf0f4e,
  0xc9b60d5afcbd5663a8a44b7c5a02f19e9a77ab0a35bd65809bb5c67ec582c897feb04decc694b13e08587f3ff9b5b60,
  0xe0031515253249cc68e8ff6381c85231781f9ba5c251f8d663d634b461bc6a35ecccd2938704d36cfd7eb7bcf843b82,
  0x73eb991aa22cdb794da6fcde55a427f0a4df5a4a70de23a988b5e5fc8c4d844f66d990273267a54dd21579b7ba6a086,
  0x72841987e4f219d54f2b6a9eac5fe6e78704644753c3579e776a3691bc123743f8c63770ed0f72a71e9e964dbf58f43,
  0x111bb496153aa457e3302ea8e74427962c6eb57e97096f65cafe45a238f739b86d4b790debd5c7359f18f3642d7d774c,
  0xb737f47d5b2794819b5dc01236895e684f1406f8b9f0d9aa06b5fb36dba6c185efec755b77d9424d09b848468127559,
  0x25cdadf2afc5906b2602574a799f4089d90f36d73f94c1cf317cfc1a207c57f232bca6057924dd34cff5bde87f1930,
  0x9843dc6497bb8028cdbaea5c085b8e8c28bb5182ce691fa9ab5303b6792b2f5af0fc8fe52abb92c07ad5f4cf586c400]
/-- ordinates of the new keys -/
@[irreducible] def ky : List ℕ := [0x8b3f481e3aaa0f1a09e30ed741d8ae4fcf5e095d5d00af600db18cb2c04b3edd03cc744a2888ae40caa232946c5e7e1,
  0x166a9d8cabc673a322fda673779d8e3822ba3ecb8670e461f73bb9021d5fd76a4c56d9d4cd16bd1bba86881979749d28,
  0x143be6d078c2b79a7d4f1d1b21486a030ec93f56aa54e1de880db5a66dd833a652a95bee27c824084006cb5644cbd43f,
  0x18a3f54484c881f70b94919888ab5546cfac6e9ce1d3959efac2b2f53a5da350016c10b1c3905cbe7a2da5aef1fe77b9,
  0x1825bacd18f695351f843521ebeada20352c3c3965626f98bc4c68e6ff7c4eed38b48f328204bbb9cd461511d24ebfb3,
  0xd6a2b27f2dc2f80885d7b3679d718c03978c664236ceae4bdb8a1a1f61d5c1433b538ddb43fef229cf4b0b03fad72e7,
  0x5120bf6abdb2aa0b467ba483df88a0745bffeefd606b6126813bc54a2acd1a57612c32b3e7329a1e163f782a75a291d,
  0x48ba1134d9ffeb5eb19f7006b3c7f64704674de5c9f2cbb52ad0278ff9d46e495b89dbb3189cd567d6fd160c676282,
  0xd39b79486e185b221147b7d85eaf2238d756842bd84f57c6f37542a047a44d0c06b5de39f22721d14e54addecaea80,
  0x1706760b494640dd33fa5a9a078727a04c402f1714071bf2ada62eb4131718fc34864aeb9c27eef1475de5dd810d57bf]
/-- the new commitment -/
@[irreducible] def cN : ℕ := 0x22e4454cf6a208f91691b7f5f02a2e6f3b54be8f8513e2335f5aff2a0d4725f5
/-- its 32 bytes -/
def msgN : List Fips.Byte := [0x22, 0xe4, 0x45, 0x4c, 0xf6, 0xa2, 0x8, 0xf9, 0x16, 0x91, 0xb7, 0xf5, 0xf0, 0x2a, 0x2e, 0x6f, 0x3b, 0x54, 0xbe, 0x8f, 0x85, 0x13, 0xe2, 0x33, 0x5f, 0x5a, 0xff, 0x2a, 0xd, 0x47, 0x25, 0xf5]
/-- digest `b_0` -/
def digest0 : List Fips.Byte := [0xa5, 0xc4, 0x79, 0x89, 0x5e, 0x39, 0xd7, 0x13, 0x4, 0x40, 0xe1, 0x58, 0xda, 0xed, 0xe6, 0x79, 0x65, 0x81, 0xfa, 0x9f, 0x45, 0x42, 0xa, 0x27, 0xb5, 0xbf, 0x4a, 0xce, 0xc3, 0x1b, 0x8f, 0x90]
/-- digest `b_1` -/
def digest1 : List Fips.Byte := [0x71, 0xad, 0x7f, 0x70, 0xa5, 0xba, 0xd3, 0x63, 0x3, 0x8c, 0x9a, 0xab, 0x12, 0xfb, 0x5b, 0x1a, 0xfd, 0x44, 0x36, 0x3e, 0x9, 0x7d, 0x89, 0x12, 0x86, 0xd7, 0xa1, 0x97, 0xd1, 0x9d, 0xc6, 0x60]
/-- digest `b_2` -/
def digest2 : List Fips.Byte := [0x68, 0x94, 0x7b, 0x43, 0xf9, 0x9, 0xd, 0xa2, 0x7f, 0x42, 0xf3, 0xde, 0x37, 0x84, 0x79, 0xd3, 0xf6, 0x7f, 0x19, 0xfa, 0xe, 0x5c, 0x4c, 0xea, 0x85, 0x61, 0x20, 0x56, 0x95, 0xaa, 0xd4, 0x21]
/-- digest `b_3` -/
def digest3 : List Fips.Byte := [0x8e, 0x8d, 0x2e, 0x32, 0x17, 0xfe, 0x4c, 0xb9, 0x5b, 0x7a, 0x51, 0x7f, 0x80, 0xcf, 0xf7, 0x6a, 0xb6, 0x3, 0x8e, 0xfe, 0xc9, 0x5b, 0x9a, 0x70, 0x51, 0x88, 0x66, 0xf0, 0x57, 0xd1, 0x15, 0x5a]
/-- digest `b_4` -/
def digest4 : List Fips.Byte := [0x73, 0xb4, 0xd2, 0xa3, 0xc5, 0x11, 0xa4, 0x22, 0x50, 0x47, 0xd2, 0x7b, 0x52, 0xfd, 0x43, 0xd8, 0xd7, 0x4e, 0xc3, 0x75, 0x86, 0x3c, 0xf7, 0xad, 0x52, 0x3a, 0x6e, 0x1a, 0xe5, 0xe0, 0xb, 0x6a]
/-- digest `b_5` -/
def digest5 : List Fips.Byte := [0x7c, 0x17, 0xee, 0xdc, 0x77, 0x61, 0x99, 0x7c, 0xa5, 0xc7, 0xb7, 0xee, 0xa8, 0xae, 0x64, 0x19, 0x8d, 0x6b, 0xa3, 0xde, 0x84, 0x98, 0xd8, 0x4b, 0xd6, 0x93, 0x1f, 0x45, 0x8f, 0x1d, 0x35, 0xd9]
/-- digest `b_6` -/
def digest6 : List Fips.Byte := [0x77, 0xa, 0x23, 0x33, 0xf, 0x8e, 0xf1, 0x7, 0xcd, 0x57, 0xbb, 0xe0, 0x18, 0x80, 0xc1, 0x24, 0xa7, 0xbc, 0x0, 0xfe, 0xd2, 0x69, 0x6e, 0x51, 0x30, 0xe8, 0x52, 0x63, 0xcd, 0x86, 0xa7, 0x4e]
/-- digest `b_7` -/
def digest7 : List Fips.Byte := [0x4b, 0xcd, 0xe2, 0xe6, 0x9c, 0xd9, 0x8a, 0x90, 0xa, 0xd9, 0x66, 0x9e, 0x8b, 0xe6, 0xc6, 0xe5, 0x7d, 0xe1, 0x5e, 0xea, 0xa4, 0xcc, 0x3e, 0xe0, 0xb3, 0x60, 0xc0, 0x6c, 0x1, 0xbe, 0xe5, 0x17]
/-- digest `b_8` -/
def digest8 : List Fips.Byte := [0x2, 0x7b, 0x2b, 0x84, 0x41, 0x2c, 0xae, 0xc, 0xe6, 0xb8, 0x0, 0x4f, 0xbd, 0x42, 0x77, 0x70, 0x8c, 0xd3, 0x63, 0xd3, 0x43, 0xb6, 0x4d, 0xa4, 0x9b, 0x79, 0x8e, 0xf9, 0x13, 0xde, 0x84, 0x7]
/-- field element -/
def u0 : ℕ × ℕ := (3811853932473160199932670375935278881642180849270136415642624026550032377676004864384636685335742606737690557105085, 303454867985607859013961973273300454153268070650428299703882414023684079932168153275496811441426705045004425919305)
/-- ordinate of its SWU point -/
def y0 : ℕ × ℕ := (2141567926854485899513048998705115286384370296381040891027486074237374744197815943563576393317210098605909817685775, 2763257970776350962216548773243874008669672431059473852889477242426383162802287445935596162065177109904090348337098)
/-- field element -/
def u1 : ℕ × ℕ := (3595587140436849409187966977636255642999673030085681084988072601072144265849289245248066405033595638957496611347992, 3873397828541879880654369084768334383219493843708146481428352449198360542765761274015335848254185727780263888180119)
/-- ordinate of its SWU point -/
def y1 : ℕ × ℕ := (2075070932649420675160430701029266372355525566699675597462779601715617868743807375142178470080012738963744136886416, 2212057866176227370667934680643857798116981647915784275641980693986811211595042254613978692725548040269720176188163)
/-- the hash point -/
@[irreducible] def hN : NPt := ((0x39acd3fc39f34687ccb89bb6d1d4698a0d9c7553fb4b1679da05c1ffb70582af20a367c24312b530e6b58c5d2b45da9, 0x94d7f344ccfa2c0ffd9719cb5367b1e3c8607f1ffc166efe8d224943baacaaf8e3a8c973b2b1af701d7e09cbac6ff8d), (0x16c3c8431eb647048f1407e07b8c078f9ee97e7f0b40b7f77e35294b1afe1e8ade4c8f409629990daf6a65a1f3dd171c, 0x89f649310528b0a88a3f9fb43219d8436625e8d34fd68b0ab3629948dcdd151ede48bb8a61a3cc48f7310c6da35e784))
/-- the signature -/
@[irreducible] def sN : NPt := ((0x195a02f7ddb0a164b0604defa603c40736c383e056932bba32e96ae19a37d9987dd3ddec8e5fcd8bfc442e5fef81d6e2, 0x1598462aacb929ba0d0069c58ddc244d110f3aeaf64b257f710226ea991796b962f42fecfa89cf3096f5b2e1e6888620), (0x7ff512cf89403b698d7d516e600c3207a5cde4fd3c2a961343f86b7cb9f0e4e640f43ba673966724dc43b5cc95f4d97, 0x2e59e675bfe84f2d9c61ecd8960a7b2ace3d2aac096e413a826fee0209e432710cc00b76e13574e6f00772f62c77ed7))
/-- abscissa of the sum of the signers' keys -/
@[irreducible] def ax : ℕ := 0x10b8a064fceff464da34056abfd4879a59ddd1ab513a6d8cc714c38c499a5e949700a76216e0ad889c32a85935d884d2
/-- its ordinate -/
@[irreducible] def ay : ℕ := 0x1291ac2e11d790e7c4320f887fa05380366ba960786a3b4677bb8461dc06bbcc8ab44407aa13212f34820ee8da04f150
/-- the Miller value -/
@[irreducible] def zN : N12 := ⟨(0xcfeaf3a01a822440946bc825a2b309456234428bec422c977867f0bde973d3b6ed29ec40f1b03415c81fbe27b9a7d77, 0x79762e06db7f7a48f89a5b674bbf262c801e01f51600cac975332312d378756c8a129cd2fd85de09cd6ac4bae7ef0fb), (0x11ec1742943ab9c4050fb2d8db187dd7969d13dd2efb82186eb8db59bcba181374bf45979d2c49018042f995409c5715, 0x13c43a4a7d4e0f2c98ee86ac0da35d4201a7be4a170cbc523a150e3614b66fc8e960aefe219181698322ca53f8689534),
  (0x196b1bfad90e3d0ecfa78f959db6468d03e3ea892a6ddfe121fd3a4082d816ba02b08be82c1edc4100707faf03924b49, 0x4ae42c8f8f5a1388b9303167c8309df8aba836c15601095e6dab14284a3ab9e2b8d16e6770a862610385e483dbe77ec), (0xd1903d33409954e19ca792ed87573df7c70cb53c7138aff8c3b60a3765772adb8b15573865aeeb995d008aa3419b0f9, 0x19e47083606ecd5710d52a869d3f549d6412918c485cbb90ede96f1e08eb9f956019b63f5b4c3f43a0a61498e0cf5426),
  (0xbd4fb9804ffb7861b5ced3bf94d3932125482d359d54666005296bc81b885e235066d81f922249c63956a9d6b348785, 0xafa2022a5d41e4e6518b5279775a9c4eecc1ac1262fb1eca9649b07191274cb73464043d4909cb051acd2d30130c382), (0x10b84817c1a43e3ca9b45283b64c891452a5eab5f6f25f303c71c2ba7217e2d2a9b24afb1f9b9fbaae4b8b6b6b193a7b, 0x195f3b73028dbc30b737c15f67bdb77db547792dd2681864ec16b834a8b63a4efc12049c1082745dd9f520c52f3b6dbe)⟩

end Spark.Rot
