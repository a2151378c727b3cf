import Verif.Spec.Sha256

/-! Witnesses for a concrete case of `EncodeToG2`, generated by tools/gen_encode_example.py.  They are
data: every fact about them is checked by the kernel in `Instances/Encode.lean`. -/

namespace Spark.G2

/-- digest `b_0` of the example message, 128 bytes requested -/
def encDigest0 : List Fips.Byte := [0x7b, 0x15, 0x94, 0x27, 0xc5, 0x35, 0xcc, 0x65, 0x70, 0xbf, 0x11, 0xfc, 0xa8, 0xff, 0xf, 0xff, 0x98, 0x0, 0x19, 0x44, 0xb0, 0xf8, 0xff, 0x3c, 0xbc, 0x12, 0x5e, 0xe7, 0x6a, 0x47, 0xd, 0x93]
/-- digest `b_1` -/
def encDigest1 : List Fips.Byte := [0xf9, 0x71, 0x1, 0x71, 0xc1, 0xda, 0x4, 0x34, 0x7, 0xae, 0xc, 0xa9, 0xe8, 0x3c, 0xf2, 0x68, 0xc8, 0x2c, 0x55, 0x1a, 0x3a, 0x3f, 0xc3, 0x5, 0x72, 0x85, 0x15, 0xd8, 0x90, 0x11, 0xa0, 0x9]
/-- digest `b_2` -/
def encDigest2 : List Fips.Byte := [0xdc, 0xca, 0xef, 0xa5, 0x75, 0x5f, 0x4a, 0xf6, 0xc5, 0x33, 0xab, 0xba, 0x10, 0xa4, 0xff, 0x28, 0x9c, 0x10, 0xcf, 0xb2, 0xff, 0x30, 0xe9, 0x91, 0x9d, 0x5, 0x53, 0x8e, 0xc4, 0x83, 0xbe, 0x86]
/-- digest `b_3` -/
def encDigest3 : List Fips.Byte := [0x3e, 0xe9, 0x0, 0x80, 0x23, 0x6e, 0x1c, 0x19, 0xbe, 0x4a, 0x60, 0x7, 0x4f, 0x6a, 0x72, 0x3d, 0x5f, 0xd2, 0x9f, 0x60, 0xd7, 0xf5, 0x8f, 0xb, 0xa3, 0xe3, 0x32, 0x65, 0x11, 0xe6, 0xcf, 0x54]
/-- digest `b_4` -/
def encDigest4 : List Fips.Byte := [0x3e, 0xa5, 0x9c, 0x74, 0x77, 0xfb, 0x87, 0x14, 0x6b, 0x2f, 0xe6, 0xca, 0xac, 0x82, 0xe3, 0x13, 0x6f, 0x32, 0x4c, 0xb9, 0x4d, 0x51, 0x1d, 0x77, 0x19, 0x60, 0x8f, 0xf8, 0xd, 0xc3, 0xbc, 0xc7]
/-- field element -/
def encU : ℕ × ℕ := (1497314216742274399331438454881425921326610542569050615849439854032674831139538008157591891533158882562280918295522, 590684471380164320931127810375967644243952314618194084718212288228807189371904111207708567923189002070255788501162)
/-- ordinate of its SWU point -/
def encY : ℕ × ℕ := (580443854571120451390330095424120063431307292408754947177349137490615824334073787176916305707824414359866453654114, 3041999597574770884544733397812150387148438690262825631772452299923823780308940385207214474768196766383536184636981)

end Spark.G2
