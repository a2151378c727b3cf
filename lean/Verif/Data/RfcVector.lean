import Verif.Spec.Sha256

/-! Witnesses for a test vector of RFC 9380, generated by tools/gen_rfc_vector.py.  They are data: every fact about them is
checked by the kernel in `Props/RfcVectors.lean`. -/

namespace Spark.RfcVector

/-- digest `b_0` -/
def digest0 : List Fips.Byte := [0x67, 0xf0, 0xa, 0xc1, 0x52, 0x34, 0xb1, 0xd3, 0x9f, 0x51, 0xec, 0xaf, 0x49, 0x91, 0x39, 0xa7, 0xee, 0x94, 0xd4, 0x88, 0x5d, 0x98, 0x2a, 0x4e, 0x98, 0xf8, 0xe1, 0x91, 0xcf, 0xf6, 0x7c, 0x5e]
/-- digest `b_1` -/
def digest1 : List Fips.Byte := [0x4c, 0xb7, 0x7b, 0xf2, 0xd8, 0x55, 0xac, 0x3b, 0x31, 0x1b, 0x9b, 0x17, 0xc, 0x8f, 0xfd, 0x10, 0x6d, 0x53, 0xb3, 0xad, 0x99, 0x6b, 0x74, 0x46, 0xfa, 0xaa, 0x19, 0x7, 0x3d, 0xab, 0x8f, 0xe6]
/-- digest `b_2` -/
def digest2 : List Fips.Byte := [0x43, 0xb9, 0xbd, 0x30, 0xe7, 0xf2, 0xfa, 0xd6, 0x16, 0xf1, 0x2a, 0xc4, 0x2f, 0x64, 0x59, 0x49, 0xbd, 0x4c, 0xc3, 0x2b, 0x1, 0x76, 0x2b, 0xcf, 0x98, 0xb5, 0x9b, 0x1e, 0xd5, 0xed, 0x68, 0xb1]
/-- digest `b_3` -/
def digest3 : List Fips.Byte := [0x7d, 0xb8, 0x1e, 0xe8, 0x3d, 0xca, 0x4d, 0xa4, 0x25, 0xc4, 0x6c, 0x81, 0x63, 0x8d, 0x3a, 0x4c, 0x19, 0xf3, 0x11, 0xc1, 0xfa, 0xf, 0x35, 0x7c, 0x60, 0xf2, 0x78, 0xd, 0x58, 0xf0, 0x65, 0x42]
/-- digest `b_4` -/
def digest4 : List Fips.Byte := [0x24, 0x1f, 0x46, 0xb1, 0x4, 0x16, 0xdb, 0x0, 0xd1, 0x88, 0x52, 0xf, 0x44, 0x1c, 0x67, 0x4e, 0x4e, 0xdd, 0xd0, 0xd2, 0x8f, 0xdb, 0x70, 0xbc, 0xc, 0x53, 0x6e, 0x65, 0xc2, 0xa9, 0x2, 0xca]
/-- digest `b_5` -/
def digest5 : List Fips.Byte := [0xd1, 0xd5, 0x6c, 0x12, 0xce, 0x5c, 0xaf, 0x94, 0x6d, 0x64, 0x1, 0xc5, 0x56, 0x84, 0x1a, 0xd3, 0x92, 0xb9, 0x4, 0x1a, 0x18, 0x4f, 0x81, 0x60, 0x2d, 0xab, 0x4d, 0x13, 0xc2, 0x89, 0xf2, 0x35]
/-- digest `b_6` -/
def digest6 : List Fips.Byte := [0xae, 0x60, 0x11, 0x23, 0xa1, 0x5, 0x9d, 0x54, 0x93, 0x20, 0x57, 0x93, 0xed, 0x22, 0x4f, 0xbe, 0x69, 0xd0, 0xc2, 0x19, 0xdd, 0xe2, 0x6d, 0x60, 0x25, 0x48, 0x7, 0x34, 0x34, 0xc, 0xe, 0x1f]
/-- digest `b_7` -/
def digest7 : List Fips.Byte := [0x44, 0x7d, 0xd9, 0x6d, 0xea, 0x46, 0xbb, 0xd9, 0xcf, 0x12, 0x5c, 0x1e, 0x9b, 0x94, 0x7c, 0x7a, 0xc7, 0xde, 0x28, 0xf1, 0xa, 0x9, 0xf5, 0x7, 0x99, 0xa6, 0xd7, 0x5c, 0x51, 0x3c, 0x16, 0x43]
/-- digest `b_8` -/
def digest8 : List Fips.Byte := [0x4a, 0xa1, 0x99, 0xf5, 0x49, 0xa7, 0x51, 0xf3, 0xd2, 0xcd, 0x70, 0xf7, 0xcd, 0x42, 0xeb, 0x72, 0xeb, 0x71, 0xe6, 0xd4, 0x1c, 0x99, 0xac, 0xa3, 0x50, 0x75, 0xe0, 0xd4, 0x7f, 0xd1, 0xda, 0x6c]
/-- ordinate of the SWU point of `u0` -/
def y0 : ℕ × ℕ := (1842813153358560687634500333570189006426514559071004676715031705637331861897467026112259097700599015948196491964104, 1919560373509329990190398196596248904228486898136222165059580822353869402983639316101175960854421770934878934628156)
/-- ordinate of the SWU point of `u1` -/
def y1 : ℕ × ℕ := (2118805429048073078443247863779680561222250856781612015223057344889147526018767378659529981548751757045068950554072, 1078123135037974527736698374119090217049035685701368399503148425326441759310804083797413869614596539324259578903443)

end Spark.RfcVector
