import Verif.Spec.Sha256

/-! Witnesses for the concrete cases of `HashToG2`, generated by tools/gen_hash_example.py.  They are
data: every fact about them is checked by the kernel in `Lemmas/HashExample.lean`. -/

namespace Spark.G2

/-- digest `b_0` of the example message -/
def exDigest0 : List Fips.Byte := [0x84, 0x14, 0x55, 0xe7, 0x24, 0x51, 0x7d, 0xef, 0x9e, 0xcc, 0x5e, 0x83, 0x7f, 0xc3, 0x10, 0x33, 0xa6, 0x5a, 0xc2, 0xea, 0x33, 0xe4, 0x9e, 0xbb, 0x69, 0xb4, 0xfb, 0x7f, 0x72, 0x10, 0x41, 0x2c]
/-- digest `b_1` -/
def exDigest1 : List Fips.Byte := [0xda, 0xce, 0x13, 0xaf, 0xf0, 0xc7, 0x47, 0x1f, 0x38, 0x65, 0x20, 0xcf, 0xbd, 0x2b, 0xb9, 0x9c, 0xc1, 0xf8, 0xc8, 0xe, 0x62, 0xfc, 0x75, 0x7d, 0x75, 0x7c, 0x1, 0x7, 0x80, 0xed, 0x32, 0xf7]
/-- digest `b_2` -/
def exDigest2 : List Fips.Byte := [0x32, 0xb4, 0xe1, 0x10, 0xab, 0x19, 0x70, 0xf3, 0xf7, 0x82, 0x2, 0xe0, 0xbd, 0x60, 0x8f, 0x76, 0x9, 0xf3, 0xb6, 0xfe, 0xb3, 0xa6, 0x5e, 0x8, 0xe6, 0x26, 0xd1, 0x27, 0x48, 0xf3, 0xda, 0x75]
/-- digest `b_3` -/
def exDigest3 : List Fips.Byte := [0x6b, 0xc1, 0x98, 0x7f, 0x9b, 0xc7, 0xe6, 0x9f, 0x3, 0x1e, 0x9c, 0x58, 0x6e, 0x49, 0x1d, 0x2a, 0xdf, 0xeb, 0x53, 0x51, 0x3f, 0xaf, 0x83, 0x84, 0xb3, 0x9f, 0x29, 0xe6, 0x1e, 0x11, 0xae, 0x79]
/-- digest `b_4` -/
def exDigest4 : List Fips.Byte := [0x67, 0x9, 0xda, 0x6, 0xee, 0xcb, 0x52, 0x31, 0xec, 0x9f, 0x27, 0x0, 0x77, 0x6c, 0xd7, 0x84, 0xe8, 0x49, 0x12, 0xc9, 0xf5, 0x78, 0x1, 0x99, 0x66, 0xb3, 0x90, 0x73, 0xb4, 0x85, 0x44, 0x1f]
/-- digest `b_5` -/
def exDigest5 : List Fips.Byte := [0x66, 0xf4, 0x8a, 0x20, 0x65, 0xf6, 0xe9, 0xfb, 0xb9, 0xd4, 0xc6, 0xeb, 0x67, 0xb2, 0xdf, 0x92, 0xd3, 0x8a, 0x2e, 0xb6, 0x14, 0xd9, 0xd, 0x8d, 0x39, 0xa, 0xcf, 0xa7, 0x94, 0x5c, 0x23, 0x39]
/-- digest `b_6` -/
def exDigest6 : List Fips.Byte := [0xe1, 0xec, 0x91, 0xe9, 0xbe, 0x83, 0x3, 0x7e, 0x11, 0x26, 0x86, 0xb6, 0xef, 0xe3, 0xb8, 0x7, 0xf3, 0x3a, 0x55, 0xf, 0xee, 0x74, 0x65, 0x78, 0xb2, 0xbe, 0x8f, 0x16, 0x4d, 0x25, 0x16, 0x14]
/-- digest `b_7` -/
def exDigest7 : List Fips.Byte := [0x85, 0xc5, 0x48, 0x65, 0xb1, 0x11, 0x17, 0x8d, 0x32, 0xe2, 0x2a, 0xcd, 0x39, 0xfc, 0xec, 0x3d, 0x6c, 0xf8, 0xd5, 0xd3, 0x34, 0x14, 0xb1, 0x97, 0x53, 0xe5, 0xee, 0x8, 0x8, 0x4a, 0x5e, 0x3e]
/-- digest `b_8` -/
def exDigest8 : List Fips.Byte := [0xf9, 0x7e, 0xbb, 0xf3, 0xae, 0x6a, 0x7, 0xec, 0xa4, 0x40, 0x8f, 0x9f, 0xe2, 0xaf, 0x81, 0x60, 0xd6, 0x18, 0x29, 0x52, 0xb8, 0xbf, 0xbe, 0xd4, 0x28, 0xea, 0x12, 0xba, 0x93, 0xb7, 0x5c, 0xdf]
/-- field element -/
def exU0 : ℕ × ℕ := (1586714461943164315478588152062249468636729028294878368129118158707504237415681369110540251688966206521775200950075, 640834231969457832706280397805490864735642176784881803284625979439905239487322313460608595316831183636154323726084)
/-- ordinate of its SWU point -/
def exY0 : ℕ × ℕ := (1035030463888105828857501732924574988983081817879817597514266397238033519743115560173043519124153320593818397668117, 770204894343581693244514376947085554891655000361324625380986294674510819181439685400134556198933966688236295992795)
/-- field element -/
def exU1 : ℕ × ℕ := (3010668738760279452527940005712518265807950499752467685304740710705985997423930533343065105235370638655043955692060, 1593111885019185264922357563711127935977931420944065050394221255310402968744465000150773410799489955860111617456443)
/-- ordinate of its SWU point -/
def exY1 : ℕ × ℕ := (1594623399543439567557941833235699277411631572275955273357679363644217746689681955628553612849935259978078078707914, 766488835513527005919898641824977736328838638451311033871791395106027038642975952971263045472306149556612896751889)
/-- field element -/
def exUI : ℕ × ℕ := (0, 1)
/-- ordinate of its SWU point -/
def exYI : ℕ × ℕ := (2676862369022599658690057247414008880824294066798086167565225040540578060633753418193406337557903957018829571487166, 216431683671600045804903781539372670565626791867380960932221497967691088505725305975767792534832242341422491144223)
/-- field element -/
def exUA : ℕ × ℕ := (1, 0)
/-- ordinate of its SWU point -/
def exYA : ℕ × ℕ := (483950511133246063278500667890425269817047677648651481553368849123043384491524467549724515390600657308756785679369, 3906985860187570787735561476856923467787148002658702404484402624719385166527484043253636273152595842569682378807146)
/-- field element -/
def exUB : ℕ × ℕ := (2, 0)
/-- ordinate of its SWU point -/
def exYB : ℕ × ℕ := (865802805331548105404143413524226263993193353323347019013851557156091056666720589188562604083639761469724373471392, 3999276852397713927217194964876125525841650305597687641037388786119368066161272709085326224006808723970157338517068)

end Spark.G2
