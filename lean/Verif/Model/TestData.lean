import Verif.Model.Crypto

/-!
# The keys for tests and examples (saltchannel/util/crypto_test_data.py)
-/

namespace Salt.CryptoTestData

/-- `CryptoTestData.aSig`, util/crypto_test_data.py:8-10. -/
def aSig : KeyPair where
  sec := [85, 244, 209, 209, 152, 9, 60, 132, 222, 158, 233, 166, 41, 158, 15, 104, 145, 194, 225, 208, 179, 105, 239, 181, 146, 169, 227, 241, 105, 251, 15, 121,
    85, 41, 206, 140, 207, 104, 192, 184, 172, 25, 212, 55, 171, 15, 91, 50, 114, 55, 130, 96, 142, 147, 198, 38, 79, 24, 75, 161, 82, 194, 53, 123]
  pub := [85, 41, 206, 140, 207, 104, 192, 184, 172, 25, 212, 55, 171, 15, 91, 50, 114, 55, 130, 96, 142, 147, 198, 38, 79, 24, 75, 161, 82, 194, 53, 123]

/-- `CryptoTestData.bSig`, util/crypto_test_data.py:12-14. -/
def bSig : KeyPair where
  sec := [122, 119, 47, 169, 1, 75, 66, 51, 0, 7, 106, 47, 246, 70, 70, 57, 82, 241, 65, 226, 170, 141, 152, 38, 60, 105, 12, 13, 114, 238, 213, 45,
    7, 226, 141, 78, 227, 43, 253, 196, 176, 125, 65, 201, 33, 147, 192, 194, 94, 230, 179, 9, 76, 98, 150, 243, 115, 65, 59, 55, 61, 54, 22, 139]
  pub := [7, 226, 141, 78, 227, 43, 253, 196, 176, 125, 65, 201, 33, 147, 192, 194, 94, 230, 179, 9, 76, 98, 150, 243, 115, 65, 59, 55, 61, 54, 22, 139]

/-- `CryptoTestData.aEnc`, util/crypto_test_data.py:21-33. -/
def aEnc : KeyPair where
  sec := [119, 7, 109, 10, 115, 24, 165, 125, 60, 22, 193, 114, 81, 178, 102, 69, 223, 76, 47, 135, 235, 192, 153, 42, 177, 119, 251, 165, 29, 185, 44, 42]
  pub := [133, 32, 240, 9, 137, 48, 167, 84, 116, 139, 125, 220, 180, 62, 247, 90, 13, 191, 58, 13, 38, 56, 26, 244, 235, 164, 169, 142, 170, 155, 78, 106]

/-- `CryptoTestData.bEnc`, util/crypto_test_data.py:35-48. -/
def bEnc : KeyPair where
  sec := [93, 171, 8, 126, 98, 74, 138, 75, 121, 225, 127, 139, 131, 128, 14, 230, 111, 59, 177, 41, 38, 24, 182, 253, 28, 47, 139, 39, 255, 136, 224, 235]
  pub := [222, 158, 219, 125, 123, 125, 193, 180, 211, 91, 97, 194, 236, 228, 53, 55, 63, 131, 67, 200, 91, 120, 103, 77, 173, 252, 126, 20, 111, 136, 43, 79]

/-- `CryptoTestData.cSig`, util/crypto_test_data.py:51-53. -/
def cSig : KeyPair where
  sec := [81, 228, 125, 187, 7, 64, 217, 224, 94, 243, 3, 70, 254, 153, 150, 76, 190, 241, 28, 78, 107, 172, 218, 225, 155, 217, 87, 68, 154, 87, 78, 136,
    107, 29, 10, 190, 156, 182, 187, 240, 109, 234, 227, 154, 194, 160, 131, 80, 58, 248, 150, 127, 25, 237, 5, 215, 229, 182, 152, 171, 126, 104, 72, 3]
  pub := [107, 29, 10, 190, 156, 182, 187, 240, 109, 234, 227, 154, 194, 160, 131, 80, 58, 248, 150, 127, 25, 237, 5, 215, 229, 182, 152, 171, 126, 104, 72, 3]

/-- `CryptoTestData.cEnc`, util/crypto_test_data.py:55-57. -/
def cEnc : KeyPair where
  sec := [190, 53, 82, 163, 8, 205, 5, 175, 210, 148, 48, 48, 165, 165, 130, 37, 152, 117, 208, 10, 179, 19, 167, 246, 216, 168, 252, 107, 243, 175, 71, 50]
  pub := [247, 138, 124, 112, 64, 128, 156, 97, 56, 237, 50, 113, 217, 78, 229, 101, 123, 76, 129, 4, 140, 165, 28, 123, 111, 93, 54, 119, 246, 199, 106, 79]

/-- `CryptoTestData.dSig`, util/crypto_test_data.py:59-61. -/
def dSig : KeyPair where
  sec := [117, 216, 235, 117, 62, 85, 80, 22, 193, 17, 177, 147, 50, 126, 144, 4, 170, 144, 198, 141, 140, 10, 150, 32, 97, 10, 125, 155, 187, 191, 113, 30,
    242, 81, 202, 36, 25, 106, 5, 94, 231, 121, 193, 231, 241, 114, 33, 114, 250, 74, 254, 203, 130, 91, 31, 222, 140, 215, 143, 248, 139, 139, 157, 243]
  pub := [242, 81, 202, 36, 25, 106, 5, 94, 231, 121, 193, 231, 241, 114, 33, 114, 250, 74, 254, 203, 130, 91, 31, 222, 140, 215, 143, 248, 139, 139, 157, 243]

/-- `CryptoTestData.dEnc`, util/crypto_test_data.py:63-65. -/
def dEnc : KeyPair where
  sec := [137, 3, 18, 157, 139, 66, 26, 147, 170, 241, 137, 227, 15, 63, 134, 145, 160, 47, 254, 99, 138, 223, 151, 52, 253, 168, 172, 28, 233, 197, 16, 166]
  pub := [98, 48, 208, 223, 26, 80, 105, 84, 132, 71, 151, 140, 16, 123, 55, 140, 168, 129, 121, 195, 121, 159, 185, 157, 241, 0, 113, 65, 252, 23, 55, 18]

/-- `CryptoTestData.random16a`, util/crypto_test_data.py:68. -/
def random16a : Bytes := [214, 158, 128, 64, 168, 248, 162, 44, 57, 7, 16, 96, 33, 24, 69, 189]

/-- `CryptoTestData.random32a`, util/crypto_test_data.py:69. -/
def random32a : Bytes := [73, 28, 188, 109, 98, 53, 27, 57, 108, 129, 33, 160, 119, 231, 57, 247, 118, 73, 146, 243, 11, 226, 74, 155, 37, 221, 237, 195, 214, 131, 136, 198]

/-- `CryptoTestData.random64a`, util/crypto_test_data.py:70. -/
def random64a : Bytes := [190, 53, 82, 163, 8, 205, 5, 175, 210, 148, 48, 48, 165, 165, 130, 37, 152, 117, 208, 10, 179, 19, 167, 246, 216, 168, 252, 107, 243, 175, 71, 50,
    73, 28, 188, 109, 98, 53, 27, 57, 108, 129, 33, 160, 119, 231, 57, 247, 118, 73, 146, 243, 11, 226, 74, 155, 37, 221, 237, 195, 214, 131, 136, 198]

end Salt.CryptoTestData
