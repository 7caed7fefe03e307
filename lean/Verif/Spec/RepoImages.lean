import Verif.Model.Basic
/-!
# The images of the repository's tests

The bytes of tests/images/*.jpg and the expected bytes of tests/test.rs.
-/

namespace Jpeg.Tests

/-- tests/images/green.jpg -/
def green : List UInt8 :=
  [255, 216, 255, 224, 0, 16, 74, 70, 73, 70, 0, 1, 1, 1, 0, 96, 0, 96, 0, 0, 255, 219, 0, 67, 0, 2, 1, 1, 2, 1,
  1, 2, 2, 2, 2, 2, 2, 2, 2, 3, 5, 3, 3, 3, 3, 3, 6, 4, 4, 3, 5, 7, 6, 7, 7, 7, 6, 7, 7, 8, 9, 11, 9, 8, 8, 10,
  8, 7, 7, 10, 13, 10, 10, 11, 12, 12, 12, 12, 7, 9, 14, 15, 13, 12, 14, 11, 12, 12, 12, 255, 219, 0, 67, 1, 2,
  2, 2, 3, 3, 3, 6, 3, 3, 6, 12, 8, 7, 8, 12, 12, 12, 12, 12, 12, 12, 12, 12, 12, 12, 12, 12, 12, 12, 12, 12,
  12, 12, 12, 12, 12, 12, 12, 12, 12, 12, 12, 12, 12, 12, 12, 12, 12, 12, 12, 12, 12, 12, 12, 12, 12, 12, 12,
  12, 12, 12, 12, 12, 12, 255, 192, 0, 17, 8, 0, 8, 0, 16, 3, 1, 34, 0, 2, 17, 1, 3, 17, 1, 255, 196, 0, 31, 0,
  0, 1, 5, 1, 1, 1, 1, 1, 1, 0, 0, 0, 0, 0, 0, 0, 0, 1, 2, 3, 4, 5, 6, 7, 8, 9, 10, 11, 255, 196, 0, 181, 16, 0,
  2, 1, 3, 3, 2, 4, 3, 5, 5, 4, 4, 0, 0, 1, 125, 1, 2, 3, 0, 4, 17, 5, 18, 33, 49, 65, 6, 19, 81, 97, 7, 34,
  113, 20, 50, 129, 145, 161, 8, 35, 66, 177, 193, 21, 82, 209, 240, 36, 51, 98, 114, 130, 9, 10, 22, 23, 24,
  25, 26, 37, 38, 39, 40, 41, 42, 52, 53, 54, 55, 56, 57, 58, 67, 68, 69, 70, 71, 72, 73, 74, 83, 84, 85, 86,
  87, 88, 89, 90, 99, 100, 101, 102, 103, 104, 105, 106, 115, 116, 117, 118, 119, 120, 121, 122, 131, 132, 133,
  134, 135, 136, 137, 138, 146, 147, 148, 149, 150, 151, 152, 153, 154, 162, 163, 164, 165, 166, 167, 168, 169,
  170, 178, 179, 180, 181, 182, 183, 184, 185, 186, 194, 195, 196, 197, 198, 199, 200, 201, 202, 210, 211, 212,
  213, 214, 215, 216, 217, 218, 225, 226, 227, 228, 229, 230, 231, 232, 233, 234, 241, 242, 243, 244, 245, 246,
  247, 248, 249, 250, 255, 196, 0, 31, 1, 0, 3, 1, 1, 1, 1, 1, 1, 1, 1, 1, 0, 0, 0, 0, 0, 0, 1, 2, 3, 4, 5, 6,
  7, 8, 9, 10, 11, 255, 196, 0, 181, 17, 0, 2, 1, 2, 4, 4, 3, 4, 7, 5, 4, 4, 0, 1, 2, 119, 0, 1, 2, 3, 17, 4, 5,
  33, 49, 6, 18, 65, 81, 7, 97, 113, 19, 34, 50, 129, 8, 20, 66, 145, 161, 177, 193, 9, 35, 51, 82, 240, 21, 98,
  114, 209, 10, 22, 36, 52, 225, 37, 241, 23, 24, 25, 26, 38, 39, 40, 41, 42, 53, 54, 55, 56, 57, 58, 67, 68,
  69, 70, 71, 72, 73, 74, 83, 84, 85, 86, 87, 88, 89, 90, 99, 100, 101, 102, 103, 104, 105, 106, 115, 116, 117,
  118, 119, 120, 121, 122, 130, 131, 132, 133, 134, 135, 136, 137, 138, 146, 147, 148, 149, 150, 151, 152, 153,
  154, 162, 163, 164, 165, 166, 167, 168, 169, 170, 178, 179, 180, 181, 182, 183, 184, 185, 186, 194, 195, 196,
  197, 198, 199, 200, 201, 202, 210, 211, 212, 213, 214, 215, 216, 217, 218, 226, 227, 228, 229, 230, 231, 232,
  233, 234, 242, 243, 244, 245, 246, 247, 248, 249, 250, 255, 218, 0, 12, 3, 1, 0, 2, 17, 3, 17, 0, 63, 0, 203,
  162, 138, 43, 241, 115, 248, 12, 255, 217]

/-- tests/images/simple.jpg, 33 by 16, with 2x2 subsampling -/
def simple : List UInt8 :=
  [255, 216, 255, 224, 0, 16, 74, 70, 73, 70, 0, 1, 1, 1, 0, 96, 0, 96, 0, 0, 255, 225, 0, 34, 69, 120, 105,
  102, 0, 0, 77, 77, 0, 42, 0, 0, 0, 8, 0, 1, 1, 18, 0, 3, 0, 0, 0, 1, 0, 1, 0, 0, 0, 0, 0, 0, 255, 219, 0, 67,
  0, 2, 1, 1, 2, 1, 1, 2, 2, 2, 2, 2, 2, 2, 2, 3, 5, 3, 3, 3, 3, 3, 6, 4, 4, 3, 5, 7, 6, 7, 7, 7, 6, 7, 7, 8, 9,
  11, 9, 8, 8, 10, 8, 7, 7, 10, 13, 10, 10, 11, 12, 12, 12, 12, 7, 9, 14, 15, 13, 12, 14, 11, 12, 12, 12, 255,
  219, 0, 67, 1, 2, 2, 2, 3, 3, 3, 6, 3, 3, 6, 12, 8, 7, 8, 12, 12, 12, 12, 12, 12, 12, 12, 12, 12, 12, 12, 12,
  12, 12, 12, 12, 12, 12, 12, 12, 12, 12, 12, 12, 12, 12, 12, 12, 12, 12, 12, 12, 12, 12, 12, 12, 12, 12, 12,
  12, 12, 12, 12, 12, 12, 12, 12, 12, 12, 255, 192, 0, 17, 8, 0, 16, 0, 33, 3, 1, 34, 0, 2, 17, 1, 3, 17, 1,
  255, 196, 0, 31, 0, 0, 1, 5, 1, 1, 1, 1, 1, 1, 0, 0, 0, 0, 0, 0, 0, 0, 1, 2, 3, 4, 5, 6, 7, 8, 9, 10, 11, 255,
  196, 0, 181, 16, 0, 2, 1, 3, 3, 2, 4, 3, 5, 5, 4, 4, 0, 0, 1, 125, 1, 2, 3, 0, 4, 17, 5, 18, 33, 49, 65, 6,
  19, 81, 97, 7, 34, 113, 20, 50, 129, 145, 161, 8, 35, 66, 177, 193, 21, 82, 209, 240, 36, 51, 98, 114, 130, 9,
  10, 22, 23, 24, 25, 26, 37, 38, 39, 40, 41, 42, 52, 53, 54, 55, 56, 57, 58, 67, 68, 69, 70, 71, 72, 73, 74,
  83, 84, 85, 86, 87, 88, 89, 90, 99, 100, 101, 102, 103, 104, 105, 106, 115, 116, 117, 118, 119, 120, 121, 122,
  131, 132, 133, 134, 135, 136, 137, 138, 146, 147, 148, 149, 150, 151, 152, 153, 154, 162, 163, 164, 165, 166,
  167, 168, 169, 170, 178, 179, 180, 181, 182, 183, 184, 185, 186, 194, 195, 196, 197, 198, 199, 200, 201, 202,
  210, 211, 212, 213, 214, 215, 216, 217, 218, 225, 226, 227, 228, 229, 230, 231, 232, 233, 234, 241, 242, 243,
  244, 245, 246, 247, 248, 249, 250, 255, 196, 0, 31, 1, 0, 3, 1, 1, 1, 1, 1, 1, 1, 1, 1, 0, 0, 0, 0, 0, 0, 1,
  2, 3, 4, 5, 6, 7, 8, 9, 10, 11, 255, 196, 0, 181, 17, 0, 2, 1, 2, 4, 4, 3, 4, 7, 5, 4, 4, 0, 1, 2, 119, 0, 1,
  2, 3, 17, 4, 5, 33, 49, 6, 18, 65, 81, 7, 97, 113, 19, 34, 50, 129, 8, 20, 66, 145, 161, 177, 193, 9, 35, 51,
  82, 240, 21, 98, 114, 209, 10, 22, 36, 52, 225, 37, 241, 23, 24, 25, 26, 38, 39, 40, 41, 42, 53, 54, 55, 56,
  57, 58, 67, 68, 69, 70, 71, 72, 73, 74, 83, 84, 85, 86, 87, 88, 89, 90, 99, 100, 101, 102, 103, 104, 105, 106,
  115, 116, 117, 118, 119, 120, 121, 122, 130, 131, 132, 133, 134, 135, 136, 137, 138, 146, 147, 148, 149, 150,
  151, 152, 153, 154, 162, 163, 164, 165, 166, 167, 168, 169, 170, 178, 179, 180, 181, 182, 183, 184, 185, 186,
  194, 195, 196, 197, 198, 199, 200, 201, 202, 210, 211, 212, 213, 214, 215, 216, 217, 218, 226, 227, 228, 229,
  230, 231, 232, 233, 234, 242, 243, 244, 245, 246, 247, 248, 249, 250, 255, 218, 0, 12, 3, 1, 0, 2, 17, 3, 17,
  0, 63, 0, 253, 137, 255, 0, 130, 129, 124, 85, 241, 175, 192, 223, 217, 191, 88, 241, 151, 130, 155, 75, 133,
  188, 42, 27, 87, 214, 231, 190, 219, 229, 219, 105, 118, 241, 73, 53, 204, 128, 49, 0, 237, 84, 4, 247, 219,
  191, 111, 205, 138, 252, 62, 255, 0, 130, 135, 255, 0, 193, 72, 191, 110, 175, 218, 247, 87, 150, 223, 225,
  31, 196, 47, 15, 248, 119, 225, 207, 136, 146, 56, 108, 173, 124, 17, 121, 109, 162, 221, 132, 91, 150, 154,
  41, 228, 213, 39, 147, 207, 89, 8, 242, 227, 121, 45, 174, 98, 138, 68, 139, 152, 145, 94, 64, 223, 208, 247,
  138, 124, 41, 165, 248, 243, 194, 186, 150, 131, 174, 105, 122, 126, 181, 162, 235, 86, 146, 216, 106, 26,
  125, 253, 186, 92, 90, 223, 219, 202, 133, 37, 134, 88, 156, 20, 146, 55, 70, 101, 101, 96, 67, 2, 65, 4, 26,
  254, 119, 191, 106, 143, 248, 53, 223, 246, 162, 253, 139, 124, 98, 117, 79, 217, 99, 199, 18, 252, 74, 240,
  141, 229, 249, 146, 61, 22, 231, 81, 183, 209, 245, 123, 0, 198, 114, 191, 104, 142, 230, 69, 177, 187, 72,
  226, 72, 17, 167, 12, 142, 242, 75, 242, 218, 162, 41, 97, 195, 94, 141, 126, 127, 105, 66, 95, 39, 170, 255,
  0, 52, 124, 246, 99, 151, 230, 62, 223, 235, 89, 125, 116, 157, 172, 225, 37, 120, 59, 117, 86, 179, 79, 205,
  94, 253, 143, 29, 209, 174, 63, 224, 172, 223, 177, 63, 133, 27, 226, 117, 167, 139, 190, 47, 120, 147, 65,
  189, 86, 210, 100, 189, 30, 46, 176, 248, 145, 101, 110, 173, 251, 230, 149, 237, 76, 247, 233, 2, 175, 144,
  65, 186, 49, 160, 143, 59, 12, 139, 230, 237, 127, 218, 159, 248, 36, 87, 252, 20, 163, 226, 191, 237, 173,
  12, 58, 71, 197, 143, 5, 248, 95, 195, 94, 38, 182, 210, 38, 191, 212, 91, 64, 51, 125, 150, 41, 69, 222, 200,
  144, 43, 203, 54, 221, 208, 186, 18, 12, 172, 119, 70, 228, 28, 29, 169, 249, 191, 240, 47, 254, 9, 215, 255,
  0, 5, 20, 241, 142, 179, 15, 134, 252, 81, 240, 107, 225, 255, 0, 133, 237, 47, 34, 99, 30, 189, 171, 248,
  186, 204, 105, 182, 23, 17, 196, 229, 102, 185, 134, 202, 230, 234, 121, 55, 243, 24, 16, 194, 48, 210, 140,
  148, 77, 196, 126, 180, 127, 193, 40, 127, 224, 159, 218, 151, 236, 7, 251, 61, 205, 166, 248, 187, 196, 208,
  248, 215, 226, 87, 139, 175, 63, 182, 60, 81, 171, 193, 0, 142, 210, 222, 98, 138, 169, 167, 216, 229, 86, 81,
  99, 108, 3, 8, 196, 156, 180, 146, 207, 46, 216, 188, 227, 18, 101, 77, 227, 39, 81, 115, 165, 24, 173, 245,
  189, 252, 151, 100, 113, 225, 165, 159, 98, 113, 48, 88, 136, 194, 141, 56, 187, 202, 207, 153, 207, 77, 150,
  138, 203, 189, 245, 186, 208, 250, 155, 31, 236, 254, 180, 83, 168, 175, 78, 199, 214, 159, 255, 217]

/-- tests/test.rs:74 `EXPECTED_SIMPLE` -/
def expectedSimple : List UInt8 :=
  [246, 255, 254, 246, 255, 254, 251, 255, 255, 244, 249, 252, 249, 255, 255, 248, 255, 255, 246, 255, 254, 250,
  255, 252, 253, 254, 249, 253, 252, 247, 251, 252, 246, 255, 255, 251, 253, 255, 252, 253, 253, 253, 253, 251,
  254, 255, 254, 255, 255, 255, 250, 255, 254, 250, 252, 255, 255, 245, 252, 255, 242, 255, 255, 246, 255, 255,
  252, 253, 255, 255, 254, 252, 255, 255, 251, 252, 253, 248, 255, 251, 255, 255, 253, 255, 252, 253, 255, 252,
  255, 255, 247, 254, 247, 251, 255, 249, 253, 255, 252, 252, 255, 255, 252, 255, 255, 250, 252, 251, 252, 255,
  255, 239, 252, 245, 237, 255, 246, 236, 255, 247, 236, 255, 245, 246, 255, 249, 251, 255, 250, 254, 255, 250,
  250, 251, 246, 254, 254, 252, 253, 253, 253, 4, 2, 5, 2, 0, 1, 3, 0, 0, 1, 0, 0, 2, 2, 4, 3, 7, 10, 0, 8, 9,
  245, 253, 255, 255, 254, 255, 255, 251, 248, 253, 252, 248, 252, 252, 250, 254, 255, 255, 249, 253, 254, 249,
  253, 254, 249, 255, 253, 250, 255, 250, 248, 253, 247, 253, 255, 252, 255, 254, 250, 255, 254, 249, 255, 251,
  245, 254, 254, 244, 241, 255, 242, 196, 235, 206, 119, 175, 140, 172, 227, 195, 221, 255, 237, 231, 255, 239,
  248, 255, 248, 2, 0, 1, 3, 1, 4, 1, 0, 2, 5, 3, 8, 3, 1, 4, 4, 0, 3, 4, 0, 0, 9, 5, 2, 2, 1, 0, 0, 2, 0, 0, 1,
  0, 7, 0, 0, 9, 0, 0, 255, 253, 253, 254, 255, 255, 239, 254, 249, 238, 255, 247, 248, 255, 253, 249, 255, 249,
  246, 253, 246, 251, 255, 252, 254, 255, 255, 255, 255, 253, 255, 251, 248, 255, 252, 247, 253, 254, 240, 232,
  255, 231, 103, 153, 115, 74, 150, 101, 77, 160, 108, 160, 229, 185, 0, 32, 1, 0, 21, 2, 0, 7, 0, 0, 3, 0, 1,
  3, 2, 3, 4, 6, 0, 0, 4, 1, 0, 4, 4, 0, 1, 4, 0, 0, 6, 3, 0, 4, 6, 0, 9, 11, 0, 4, 0, 0, 7, 0, 0, 1, 0, 0, 0,
  13, 4, 189, 224, 204, 131, 173, 149, 187, 216, 196, 239, 255, 243, 251, 255, 253, 250, 252, 251, 255, 255,
  255, 248, 253, 255, 250, 254, 255, 255, 255, 253, 249, 255, 245, 230, 255, 233, 91, 148, 105, 63, 153, 92, 59,
  164, 97, 59, 160, 94, 54, 142, 84, 9, 70, 26, 0, 26, 0, 0, 13, 0, 0, 10, 0, 0, 4, 0, 0, 3, 2, 0, 1, 4, 4, 4,
  6, 2, 1, 0, 1, 2, 0, 0, 3, 0, 0, 4, 0, 0, 3, 0, 0, 3, 0, 0, 10, 0, 0, 21, 0, 70, 135, 93, 80, 156, 109, 87,
  145, 107, 218, 255, 231, 247, 255, 252, 255, 254, 255, 254, 254, 255, 249, 255, 255, 251, 255, 255, 252, 253,
  255, 244, 251, 244, 235, 255, 238, 165, 212, 178, 79, 156, 104, 63, 159, 96, 56, 161, 92, 58, 159, 91, 71,
  157, 96, 66, 136, 84, 22, 74, 35, 0, 25, 0, 0, 24, 0, 0, 17, 0, 0, 11, 0, 0, 8, 0, 0, 4, 0, 0, 11, 3, 0, 5, 0,
  0, 8, 0, 0, 12, 2, 0, 15, 0, 0, 21, 0, 3, 62, 18, 63, 153, 91, 58, 154, 90, 85, 159, 110, 215, 255, 232, 240,
  255, 250, 255, 254, 255, 254, 254, 255, 251, 254, 255, 249, 253, 255, 245, 249, 252, 251, 255, 255, 248, 255,
  250, 234, 255, 240, 218, 255, 230, 41, 99, 59, 77, 157, 104, 57, 153, 90, 61, 164, 95, 57, 160, 91, 65, 160,
  96, 77, 162, 103, 83, 162, 107, 158, 224, 178, 212, 255, 223, 226, 255, 236, 227, 255, 238, 233, 255, 243,
  244, 255, 253, 0, 7, 0, 0, 16, 0, 5, 59, 23, 62, 139, 83, 63, 160, 91, 57, 170, 92, 60, 163, 90, 75, 149, 98,
  215, 255, 231, 237, 254, 246, 253, 254, 255, 255, 255, 255, 251, 255, 255, 251, 255, 255, 251, 255, 255, 248,
  252, 253, 251, 253, 252, 249, 255, 251, 242, 255, 247, 0, 19, 0, 0, 31, 0, 39, 111, 65, 67, 156, 98, 59, 158,
  94, 63, 164, 96, 57, 156, 89, 65, 162, 93, 70, 159, 95, 78, 153, 97, 99, 165, 117, 168, 228, 190, 211, 255,
  234, 220, 255, 238, 220, 255, 237, 179, 237, 197, 66, 145, 88, 61, 163, 90, 52, 165, 85, 53, 164, 87, 63, 155,
  90, 142, 203, 159, 226, 255, 235, 246, 255, 250, 254, 255, 255, 255, 255, 255, 247, 255, 255, 243, 252, 249,
  253, 255, 252, 255, 255, 253, 253, 253, 251, 253, 255, 250, 249, 255, 251, 0, 5, 0, 0, 12, 0, 0, 19, 0, 0, 25,
  0, 48, 103, 64, 80, 148, 101, 72, 153, 95, 67, 157, 93, 64, 161, 92, 61, 161, 89, 62, 163, 93, 64, 163, 99,
  82, 175, 118, 122, 211, 155, 52, 141, 83, 67, 162, 94, 59, 161, 87, 49, 160, 81, 60, 166, 92, 70, 155, 96, 36,
  97, 55, 225, 255, 234, 242, 255, 245, 249, 254, 247, 255, 255, 253, 255, 255, 255, 245, 254, 253, 251, 255,
  255, 255, 255, 253, 250, 249, 245, 255, 254, 250, 255, 254, 250, 254, 255, 250, 254, 255, 251, 0, 2, 0, 0, 3,
  0, 0, 12, 0, 0, 20, 0, 0, 25, 0, 0, 40, 0, 38, 104, 56, 71, 150, 93, 65, 160, 92, 56, 157, 87, 61, 160, 93,
  58, 159, 93, 56, 163, 93, 57, 164, 92, 59, 161, 87, 65, 163, 90, 72, 164, 97, 18, 97, 40, 0, 33, 0, 226, 255,
  236, 242, 255, 247, 253, 255, 250, 252, 251, 247, 253, 249, 246, 255, 255, 253, 254, 249, 255, 255, 250, 254,
  254, 252, 253, 255, 255, 253, 255, 254, 251, 255, 254, 251, 255, 254, 250, 255, 252, 247, 4, 3, 0, 7, 10, 3,
  0, 10, 1, 0, 7, 0, 0, 17, 3, 0, 17, 0, 0, 15, 0, 0, 22, 0, 25, 80, 40, 85, 148, 101, 85, 149, 99, 71, 146, 90,
  66, 161, 97, 62, 159, 92, 73, 155, 93, 81, 148, 95, 41, 89, 49, 0, 22, 0, 0, 11, 0, 246, 255, 250, 253, 255,
  254, 255, 253, 254, 255, 254, 253, 255, 253, 252, 255, 254, 255, 255, 248, 255, 255, 249, 254, 255, 254, 255,
  253, 253, 253, 255, 255, 255, 255, 252, 253, 255, 250, 251, 255, 252, 253, 253, 249, 246, 2, 3, 0, 0, 2, 0, 2,
  7, 0, 1, 3, 0, 0, 1, 0, 0, 4, 0, 3, 16, 6, 0, 18, 0, 0, 23, 0, 0, 26, 0, 0, 35, 0, 14, 83, 36, 75, 147, 97,
  40, 95, 53, 0, 25, 0, 0, 13, 0, 0, 3, 0, 255, 255, 255, 255, 251, 255, 250, 245, 249, 255, 253, 255, 253, 249,
  250, 255, 252, 253, 255, 254, 255, 255, 247, 248, 255, 251, 252, 254, 255, 255, 247, 253, 253, 243, 246, 251,
  255, 254, 255, 254, 249, 255, 255, 250, 255, 255, 254, 255, 253, 253, 251, 254, 253, 249, 12, 9, 4, 4, 0, 0,
  7, 6, 2, 0, 6, 2, 0, 5, 0, 0, 7, 1, 0, 8, 3, 0, 10, 0, 0, 10, 0, 0, 16, 0, 0, 20, 0, 0, 18, 2, 0, 10, 0, 0, 3,
  0, 250, 254, 253, 252, 253, 255, 255, 253, 255, 255, 252, 255, 255, 252, 255, 251, 249, 252, 255, 255, 255,
  255, 255, 255, 255, 247, 247, 255, 254, 251, 243, 247, 246, 249, 255, 255, 251, 255, 255, 250, 251, 255, 252,
  249, 255, 254, 252, 255, 251, 252, 254, 255, 255, 255, 254, 250, 249, 252, 246, 246, 255, 250, 251, 4, 0, 0,
  3, 8, 4, 0, 6, 2, 0, 6, 8, 0, 2, 5, 3, 3, 3, 5, 5, 3, 0, 3, 0, 1, 7, 3, 250, 254, 253, 251, 253, 252, 253,
  254, 255, 254, 255, 255, 251, 255, 255, 249, 249, 249, 255, 248, 251, 254, 245, 248, 255, 254, 255, 252, 253,
  255, 255, 255, 255, 255, 255, 253, 250, 252, 249, 250, 255, 251, 249, 254, 250, 252, 254, 251, 254, 254, 252,
  255, 254, 255, 254, 254, 254, 249, 253, 254, 249, 253, 254, 252, 253, 255, 255, 255, 255, 255, 253, 255, 255,
  252, 255, 254, 254, 255, 247, 249, 248, 252, 252, 252, 255, 255, 255, 251, 253, 250, 253, 255, 250, 255, 255,
  253, 250, 250, 248, 252, 254, 253, 254, 255, 255, 249, 250, 252, 253, 254, 255, 247, 253, 253, 252, 255, 255,
  255, 255, 253, 255, 251, 250, 252, 252, 250, 253, 255, 252, 255, 255, 255, 249, 255, 253, 251, 255, 255, 251,
  255, 252, 253, 255, 250, 252, 253, 247, 252, 251, 247, 254, 254, 252, 254, 255, 255, 251, 255, 255, 249, 254,
  255, 251, 254, 255, 253, 254, 255, 253, 251, 255, 255, 251, 255, 255, 254, 255, 255, 254, 255, 255, 254, 255,
  253, 252, 250, 253, 255, 250, 253, 255, 250, 251, 250, 248, 255, 255, 253, 254, 255, 255, 252, 254, 253, 255,
  255, 255, 248, 249, 251, 249, 255, 255, 248, 254, 252, 248, 248, 246, 255, 254, 250, 255, 255, 251, 253, 255,
  252, 255, 255, 255]

/-- tests/images/simple-vertical.jpg, 16 by 33, with 2x2 subsampling -/
def vertical : List UInt8 :=
  [255, 216, 255, 224, 0, 16, 74, 70, 73, 70, 0, 1, 1, 1, 0, 96, 0, 96, 0, 0, 255, 225, 0, 34, 69, 120, 105,
  102, 0, 0, 77, 77, 0, 42, 0, 0, 0, 8, 0, 1, 1, 18, 0, 3, 0, 0, 0, 1, 0, 1, 0, 0, 0, 0, 0, 0, 255, 219, 0, 67,
  0, 2, 1, 1, 2, 1, 1, 2, 2, 2, 2, 2, 2, 2, 2, 3, 5, 3, 3, 3, 3, 3, 6, 4, 4, 3, 5, 7, 6, 7, 7, 7, 6, 7, 7, 8, 9,
  11, 9, 8, 8, 10, 8, 7, 7, 10, 13, 10, 10, 11, 12, 12, 12, 12, 7, 9, 14, 15, 13, 12, 14, 11, 12, 12, 12, 255,
  219, 0, 67, 1, 2, 2, 2, 3, 3, 3, 6, 3, 3, 6, 12, 8, 7, 8, 12, 12, 12, 12, 12, 12, 12, 12, 12, 12, 12, 12, 12,
  12, 12, 12, 12, 12, 12, 12, 12, 12, 12, 12, 12, 12, 12, 12, 12, 12, 12, 12, 12, 12, 12, 12, 12, 12, 12, 12,
  12, 12, 12, 12, 12, 12, 12, 12, 12, 12, 255, 192, 0, 17, 8, 0, 33, 0, 16, 3, 1, 34, 0, 2, 17, 1, 3, 17, 1,
  255, 196, 0, 26, 0, 0, 2, 2, 3, 0, 0, 0, 0, 0, 0, 0, 0, 0, 0, 0, 0, 0, 9, 7, 8, 1, 2, 6, 255, 196, 0, 41, 16,
  0, 1, 4, 1, 2, 6, 2, 1, 5, 0, 0, 0, 0, 0, 0, 0, 2, 1, 3, 4, 5, 6, 7, 18, 0, 8, 9, 17, 19, 20, 10, 34, 21, 33,
  35, 49, 50, 66, 255, 196, 0, 23, 1, 0, 3, 1, 0, 0, 0, 0, 0, 0, 0, 0, 0, 0, 0, 0, 0, 3, 4, 5, 6, 255, 196, 0,
  38, 17, 0, 1, 3, 3, 2, 5, 5, 0, 0, 0, 0, 0, 0, 0, 0, 0, 1, 2, 3, 17, 0, 4, 33, 65, 113, 5, 18, 19, 20, 97, 49,
  66, 81, 129, 209, 255, 218, 0, 12, 3, 1, 0, 2, 17, 3, 17, 0, 63, 0, 124, 121, 86, 81, 85, 130, 99, 54, 151,
  183, 214, 85, 244, 180, 180, 209, 28, 159, 97, 97, 62, 64, 70, 139, 2, 59, 64, 166, 235, 206, 186, 106, 128,
  219, 96, 2, 164, 70, 74, 136, 40, 138, 170, 168, 137, 196, 69, 165, 157, 64, 116, 227, 91, 245, 165, 48, 172,
  54, 220, 114, 162, 122, 23, 188, 197, 221, 65, 181, 54, 154, 72, 109, 66, 84, 9, 45, 25, 9, 118, 69, 254, 81,
  54, 247, 250, 238, 221, 250, 112, 144, 190, 80, 60, 210, 220, 115, 163, 213, 7, 7, 229, 110, 177, 109, 161,
  226, 58, 104, 113, 101, 92, 182, 10, 64, 147, 236, 166, 199, 106, 83, 146, 118, 163, 164, 211, 161, 26, 188,
  219, 70, 140, 219, 7, 0, 222, 156, 63, 96, 49, 85, 219, 167, 15, 80, 217, 124, 162, 117, 207, 211, 205, 36,
  146, 235, 88, 246, 157, 100, 149, 76, 97, 82, 161, 190, 196, 151, 1, 100, 207, 140, 212, 138, 183, 89, 105,
  165, 236, 142, 20, 143, 70, 48, 56, 224, 152, 54, 212, 151, 215, 232, 38, 174, 10, 46, 190, 190, 186, 89, 111,
  115, 176, 253, 168, 23, 215, 239, 119, 236, 216, 219, 68, 144, 84, 162, 115, 9, 24, 199, 146, 78, 62, 235,
  163, 234, 39, 161, 179, 48, 239, 145, 14, 178, 229, 25, 27, 44, 67, 137, 148, 98, 212, 118, 244, 45, 161, 180,
  252, 169, 208, 125, 56, 144, 30, 148, 208, 161, 126, 222, 201, 21, 242, 153, 84, 113, 64, 151, 186, 47, 109,
  134, 132, 181, 214, 45, 37, 87, 58, 191, 44, 60, 66, 38, 153, 152, 66, 163, 199, 51, 218, 79, 76, 237, 79, 96,
  63, 23, 22, 129, 25, 101, 27, 100, 215, 151, 120, 188, 21, 15, 43, 10, 170, 158, 68, 117, 149, 63, 30, 226,
  216, 251, 250, 128, 116, 165, 211, 238, 126, 114, 60, 107, 45, 178, 118, 199, 18, 212, 172, 45, 183, 24, 168,
  202, 42, 54, 11, 242, 35, 18, 26, 254, 62, 112, 18, 118, 151, 5, 93, 63, 34, 180, 170, 14, 10, 239, 241, 186,
  215, 153, 213, 56, 219, 166, 199, 72, 193, 228, 179, 154, 220, 207, 85, 238, 24, 199, 164, 228, 217, 37, 42,
  80, 13, 140, 25, 82, 201, 231, 99, 249, 153, 112, 144, 218, 61, 173, 14, 239, 90, 58, 170, 160, 145, 119, 4,
  68, 36, 77, 219, 198, 150, 214, 139, 178, 184, 148, 168, 12, 252, 70, 155, 26, 77, 54, 247, 22, 252, 109, 79,
  148, 21, 33, 212, 129, 204, 61, 164, 104, 124, 25, 153, 206, 106, 248, 175, 246, 78, 48, 95, 235, 131, 131,
  138, 70, 181, 71, 210, 191, 255, 217]

/-- tests/test.rs:158 `EXPECTED_SIMPLE_VERTICAL` -/
def expectedVertical : List UInt8 :=
  [254, 253, 251, 255, 255, 253, 248, 248, 246, 255, 252, 251, 255, 247, 248, 255, 247, 248, 246, 250, 249, 250,
  255, 255, 251, 250, 255, 250, 254, 255, 242, 255, 255, 241, 255, 255, 251, 255, 255, 254, 255, 255, 254, 254,
  255, 252, 252, 254, 254, 254, 252, 254, 254, 252, 252, 252, 252, 249, 247, 248, 254, 248, 248, 255, 253, 253,
  252, 255, 253, 245, 251, 249, 255, 255, 255, 251, 252, 255, 244, 255, 254, 245, 255, 255, 249, 253, 252, 253,
  253, 253, 255, 255, 255, 252, 252, 254, 247, 254, 247, 251, 255, 253, 242, 246, 247, 254, 255, 255, 255, 255,
  255, 251, 251, 249, 250, 252, 249, 252, 254, 251, 252, 252, 254, 247, 247, 249, 253, 255, 254, 254, 255, 251,
  255, 253, 248, 254, 251, 246, 250, 250, 250, 252, 253, 255, 247, 255, 249, 248, 254, 250, 250, 254, 255, 248,
  249, 251, 247, 251, 250, 252, 255, 253, 250, 252, 247, 255, 255, 253, 249, 250, 252, 254, 255, 255, 244, 249,
  243, 246, 252, 240, 250, 252, 238, 253, 255, 244, 252, 255, 255, 245, 250, 253, 248, 255, 248, 250, 255, 251,
  255, 254, 255, 248, 246, 251, 254, 255, 255, 251, 253, 250, 254, 255, 250, 253, 254, 249, 249, 253, 252, 246,
  255, 251, 235, 253, 237, 232, 254, 231, 238, 255, 230, 242, 255, 240, 234, 249, 242, 241, 255, 255, 250, 252,
  249, 252, 252, 252, 254, 249, 255, 255, 251, 255, 254, 254, 254, 255, 255, 253, 255, 255, 251, 250, 253, 246,
  248, 255, 250, 232, 255, 239, 170, 209, 180, 97, 141, 105, 113, 151, 114, 200, 230, 202, 232, 255, 245, 241,
  255, 255, 252, 252, 252, 255, 254, 255, 255, 250, 254, 253, 247, 251, 255, 253, 254, 254, 253, 251, 252, 253,
  248, 251, 255, 250, 239, 255, 243, 217, 255, 229, 89, 154, 111, 73, 145, 95, 85, 144, 98, 125, 170, 137, 232,
  255, 246, 238, 255, 255, 254, 255, 255, 253, 253, 253, 255, 252, 253, 255, 253, 255, 253, 249, 248, 255, 255,
  253, 250, 255, 249, 0, 6, 0, 0, 23, 0, 42, 97, 58, 72, 155, 99, 69, 157, 97, 89, 157, 108, 177, 224, 190, 232,
  255, 244, 241, 255, 253, 250, 254, 255, 251, 255, 255, 251, 251, 249, 255, 255, 251, 250, 249, 247, 2, 2, 0,
  0, 5, 0, 0, 17, 0, 0, 37, 1, 84, 154, 104, 64, 154, 93, 68, 156, 96, 163, 226, 183, 219, 255, 231, 242, 255,
  247, 249, 253, 252, 247, 251, 254, 252, 255, 255, 254, 255, 251, 250, 253, 246, 3, 4, 0, 5, 10, 4, 0, 5, 0, 0,
  25, 1, 46, 109, 64, 65, 146, 88, 68, 156, 95, 63, 140, 86, 0, 36, 1, 231, 255, 237, 249, 255, 250, 252, 252,
  250, 253, 252, 255, 253, 253, 255, 250, 252, 247, 254, 255, 250, 0, 1, 0, 4, 11, 4, 0, 14, 0, 0, 31, 1, 73,
  152, 97, 71, 159, 98, 77, 152, 96, 13, 68, 28, 0, 24, 2, 247, 255, 248, 252, 255, 248, 252, 251, 247, 255,
  253, 255, 255, 253, 255, 246, 248, 243, 11, 14, 7, 6, 9, 2, 0, 8, 0, 0, 20, 1, 52, 102, 67, 66, 154, 94, 65,
  157, 94, 72, 134, 87, 0, 30, 0, 0, 9, 0, 3, 3, 1, 250, 251, 246, 254, 255, 249, 255, 250, 255, 255, 252, 255,
  255, 254, 252, 0, 1, 0, 1, 4, 0, 1, 15, 2, 0, 27, 0, 85, 146, 102, 70, 162, 99, 69, 157, 96, 27, 75, 37, 0,
  12, 0, 0, 1, 0, 1, 0, 2, 255, 255, 253, 254, 255, 251, 252, 250, 253, 254, 252, 253, 5, 4, 2, 7, 8, 3, 3, 6,
  0, 3, 20, 2, 0, 42, 7, 79, 149, 97, 62, 154, 91, 77, 161, 102, 0, 30, 0, 3, 15, 5, 5, 6, 8, 1, 0, 4, 255, 255,
  255, 251, 253, 248, 252, 255, 255, 249, 253, 252, 5, 7, 6, 0, 5, 1, 0, 3, 0, 0, 16, 0, 45, 100, 58, 75, 152,
  96, 67, 157, 95, 87, 161, 110, 0, 25, 0, 0, 4, 0, 1, 5, 8, 4, 3, 9, 3, 3, 3, 252, 252, 250, 253, 255, 250,
  246, 251, 247, 0, 6, 6, 0, 8, 5, 1, 15, 2, 0, 26, 0, 82, 150, 99, 70, 156, 93, 71, 155, 95, 163, 226, 181, 0,
  21, 2, 0, 3, 1, 0, 1, 4, 3, 2, 7, 1, 0, 0, 255, 255, 253, 255, 252, 249, 252, 251, 247, 1, 7, 7, 0, 9, 3, 0,
  21, 3, 27, 77, 40, 72, 156, 96, 68, 159, 92, 80, 155, 99, 206, 255, 219, 0, 12, 0, 4, 4, 4, 1, 0, 2, 6, 1, 5,
  5, 4, 2, 252, 251, 247, 255, 250, 247, 255, 255, 251, 0, 4, 4, 0, 11, 2, 0, 29, 4, 87, 148, 104, 63, 152, 88,
  70, 161, 94, 95, 161, 113, 222, 255, 233, 0, 10, 0, 1, 1, 1, 10, 6, 7, 4, 0, 0, 1, 0, 0, 255, 255, 253, 253,
  255, 250, 252, 254, 251, 0, 3, 2, 0, 11, 0, 0, 33, 0, 83, 150, 99, 68, 154, 91, 75, 159, 100, 170, 227, 192,
  226, 255, 241, 0, 9, 0, 0, 4, 0, 0, 1, 0, 4, 3, 0, 1, 3, 2, 251, 255, 255, 252, 255, 253, 250, 255, 251, 1, 6,
  2, 0, 16, 0, 0, 43, 2, 72, 145, 89, 67, 153, 90, 92, 170, 118, 207, 255, 229, 228, 255, 244, 0, 11, 5, 0, 5,
  0, 7, 10, 1, 6, 7, 1, 6, 10, 11, 244, 249, 255, 249, 251, 250, 252, 255, 253, 0, 5, 0, 0, 15, 0, 18, 80, 31,
  75, 157, 93, 70, 159, 93, 130, 204, 153, 218, 255, 236, 241, 255, 255, 0, 8, 6, 0, 6, 2, 1, 3, 0, 0, 1, 0, 6,
  11, 14, 244, 251, 255, 250, 254, 253, 246, 251, 247, 0, 10, 2, 0, 24, 2, 83, 145, 98, 74, 156, 92, 68, 157,
  91, 62, 136, 83, 215, 255, 233, 0, 8, 1, 0, 10, 6, 0, 4, 0, 11, 12, 4, 1, 2, 0, 248, 252, 255, 249, 254, 255,
  250, 255, 252, 246, 255, 250, 247, 255, 253, 0, 19, 5, 43, 93, 56, 78, 148, 94, 67, 154, 86, 78, 158, 97, 181,
  236, 197, 0, 21, 0, 0, 15, 5, 0, 4, 0, 0, 1, 0, 4, 3, 0, 255, 253, 255, 252, 250, 255, 251, 255, 251, 247,
  253, 249, 249, 255, 255, 0, 9, 1, 0, 32, 5, 82, 144, 97, 75, 160, 95, 68, 154, 89, 73, 143, 91, 7, 57, 20, 0,
  15, 0, 0, 7, 0, 0, 1, 0, 6, 5, 3, 252, 250, 251, 255, 251, 255, 252, 255, 253, 245, 249, 248, 250, 254, 255,
  0, 7, 3, 0, 18, 1, 38, 88, 53, 81, 165, 105, 55, 152, 81, 71, 162, 95, 65, 135, 81, 0, 26, 0, 0, 11, 0, 0, 2,
  0, 254, 254, 254, 250, 252, 251, 253, 255, 254, 245, 247, 246, 254, 255, 255, 255, 254, 255, 246, 250, 251, 0,
  8, 0, 0, 28, 1, 20, 93, 40, 71, 163, 96, 58, 158, 85, 69, 155, 90, 8, 61, 19, 0, 21, 0, 1, 14, 5, 251, 255,
  255, 247, 251, 250, 251, 255, 252, 251, 255, 255, 246, 247, 249, 255, 254, 255, 255, 254, 255, 252, 255, 253,
  0, 16, 0, 0, 37, 0, 77, 154, 98, 58, 158, 86, 67, 167, 95, 72, 149, 95, 76, 130, 94, 189, 222, 205, 238, 253,
  248, 251, 255, 254, 255, 255, 255, 251, 252, 254, 255, 255, 255, 253, 248, 252, 249, 247, 248, 254, 255, 255,
  241, 255, 246, 222, 255, 231, 37, 94, 53, 70, 154, 94, 66, 158, 95, 68, 148, 95, 84, 149, 109, 133, 175, 155,
  236, 255, 250, 248, 254, 252, 253, 251, 252, 251, 247, 248, 254, 250, 251, 254, 250, 251, 255, 255, 255, 241,
  250, 247, 245, 255, 251, 239, 255, 245, 224, 255, 233, 143, 199, 160, 76, 143, 99, 91, 156, 114, 87, 144, 111,
  182, 221, 202, 237, 255, 250, 249, 255, 253, 254, 252, 253, 255, 254, 251, 254, 250, 249, 251, 247, 248, 253,
  253, 253, 245, 254, 251, 244, 255, 249, 246, 255, 248, 239, 255, 242, 227, 255, 236, 217, 255, 231, 214, 255,
  230, 216, 255, 232, 228, 255, 243, 236, 255, 245, 249, 254, 250, 255, 255, 253, 252, 255, 246, 251, 252, 246,
  255, 254, 255, 250, 245, 249, 250, 254, 255, 252, 255, 255, 252, 252, 250, 254, 255, 251, 243, 254, 246, 239,
  252, 245, 239, 252, 245, 245, 255, 251, 245, 255, 251, 244, 255, 247, 253, 254, 249, 254, 250, 247, 252, 255,
  248, 254, 255, 250, 255, 252, 253, 255, 253, 255, 251, 251, 253, 251, 253, 252, 252, 250, 251, 255, 252, 253,
  255, 255, 255, 255, 255, 255, 253, 253, 255, 255, 255, 255, 248, 253, 249, 250, 255, 249, 250, 251, 246, 255,
  254, 250, 254, 255, 253, 255, 255, 253, 255, 254, 255, 255, 254, 255, 254, 254, 254, 254, 254, 254, 255, 255,
  255, 255, 254, 255, 255, 255, 255, 255, 255, 255, 254, 254, 254, 254, 254, 254, 254, 255, 255, 254, 255, 253,
  253, 255, 252, 254, 254, 252]

end Jpeg.Tests
