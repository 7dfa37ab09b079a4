import Verif.Model.AeadChaCha
import Verif.Model.Prf
/-! The repository's own test vectors for the symmetric crypto, evaluated on the model by the kernel.
Generated by tools/gen_tests_sym.py. These check the fidelity of the model; they are not property proofs. -/
namespace Husk.Tests

example : Sha2.sha256 .debug [] = .ok [227, 176, 196, 66, 152, 252, 28, 20, 154, 251, 244, 200, 153, 111, 185, 36, 39, 174, 65, 228, 100, 155, 147, 76, 164, 149, 153, 27, 120, 82, 184, 85] := by decide +kernel

example : Sha2.sha256 .debug [97, 98, 99] = .ok [186, 120, 22, 191, 143, 1, 207, 234, 65, 65, 64, 222, 93, 174, 34, 35, 176, 3, 97, 163, 150, 23, 122, 156, 180, 16, 255, 97, 242, 0, 21, 173] := by decide +kernel

example : Sha2.sha256 .debug [97, 98, 99, 100, 98, 99, 100, 101, 99, 100, 101, 102, 100, 101, 102, 103, 101, 102, 103, 104, 102, 103, 104, 105, 103, 104, 105, 106, 104, 105, 106, 107, 105, 106, 107, 108, 106, 107, 108, 109, 107, 108, 109, 110, 108, 109, 110, 111, 109, 110, 111, 112, 110, 111, 112, 113] = .ok [36, 141, 106, 97, 210, 6, 56, 184, 229, 192, 38, 147, 12, 62, 96, 57, 163, 60, 228, 89, 100, 255, 33, 103, 246, 236, 237, 212, 25, 219, 6, 193] := by decide +kernel

example : Prf.hmacSha256 .debug [11, 11, 11, 11, 11, 11, 11, 11, 11, 11, 11, 11, 11, 11, 11, 11, 11, 11, 11, 11] [72, 105, 32, 84, 104, 101, 114, 101] = .ok [176, 52, 76, 97, 216, 219, 56, 83, 92, 168, 175, 206, 175, 11, 241, 43, 136, 29, 194, 0, 201, 131, 61, 167, 38, 233, 55, 108, 46, 50, 207, 247] := by decide +kernel

example : Prf.hmacSha256 .debug [74, 101, 102, 101] [119, 104, 97, 116, 32, 100, 111, 32, 121, 97, 32, 119, 97, 110, 116, 32, 102, 111, 114, 32, 110, 111, 116, 104, 105, 110, 103, 63] = .ok [91, 220, 193, 70, 191, 96, 117, 78, 106, 4, 36, 38, 8, 149, 117, 199, 90, 0, 63, 8, 157, 39, 57, 131, 157, 236, 88, 185, 100, 236, 56, 67] := by decide +kernel

example : Prf.hmacSha256 .debug [170, 170, 170, 170, 170, 170, 170, 170, 170, 170, 170, 170, 170, 170, 170, 170, 170, 170, 170, 170] [221, 221, 221, 221, 221, 221, 221, 221, 221, 221, 221, 221, 221, 221, 221, 221, 221, 221, 221, 221, 221, 221, 221, 221, 221, 221, 221, 221, 221, 221, 221, 221, 221, 221, 221, 221, 221, 221, 221, 221, 221, 221, 221, 221, 221, 221, 221, 221, 221, 221] = .ok [119, 62, 169, 30, 54, 128, 14, 70, 133, 77, 184, 235, 208, 145, 129, 167, 41, 89, 9, 139, 62, 248, 193, 34, 217, 99, 85, 20, 206, 213, 101, 254] := by decide +kernel

example : Prf.hmacSha256 .debug [1, 2, 3, 4, 5, 6, 7, 8, 9, 10, 11, 12, 13, 14, 15, 16, 17, 18, 19, 20, 21, 22, 23, 24, 25] [205, 205, 205, 205, 205, 205, 205, 205, 205, 205, 205, 205, 205, 205, 205, 205, 205, 205, 205, 205, 205, 205, 205, 205, 205, 205, 205, 205, 205, 205, 205, 205, 205, 205, 205, 205, 205, 205, 205, 205, 205, 205, 205, 205, 205, 205, 205, 205, 205, 205] = .ok [130, 85, 138, 56, 154, 68, 60, 14, 164, 204, 129, 152, 153, 242, 8, 58, 133, 240, 250, 163, 229, 120, 248, 7, 122, 46, 63, 244, 103, 41, 102, 91] := by decide +kernel

example : ((Prf.new .debug [155, 190, 67, 107, 169, 64, 240, 23, 177, 118, 82, 132, 154, 113, 219, 53] [116, 101, 116, 101, 115, 116, 32, 108, 97, 98, 101, 108, 160, 186, 159, 147, 108, 218, 49, 24, 39, 166, 247, 150, 255, 213, 25, 140] >>= fun p => Prf.getBytes .debug p 100) >>= fun r => .ok r.1) = .ok [124, 116, 233, 19, 106, 75, 107, 69, 36, 145, 116, 92, 26, 236, 102, 163, 144, 218, 35, 4, 174, 237, 145, 71, 43, 172, 84, 156, 144, 131, 35, 23, 226, 87, 190, 184, 93, 59, 85, 118, 53, 108, 95, 29, 104, 237, 174, 5, 228, 85, 40, 254, 221, 97, 114, 52, 25, 71, 45, 8, 171, 66, 164, 213, 115, 150, 22, 5, 87, 223, 42, 67, 248, 170, 246, 76, 1, 242, 230, 0, 14, 142, 176, 34, 183, 155, 51, 148, 205, 139, 65, 179, 179, 123, 41, 2, 38, 184, 2, 98] := by decide +kernel

example : Poly1305.authenticate .debug [243, 246] [133, 31, 196, 12, 52, 103, 172, 11, 224, 92, 194, 4, 4, 243, 247, 0] [88, 11, 59, 15, 148, 71, 187, 30, 105, 208, 149, 181, 146, 139, 109, 188] = .ok [244, 198, 51, 195, 4, 79, 193, 69, 248, 79, 51, 92, 184, 25, 83, 222] := by decide +kernel

example : Poly1305.authenticate .debug [] [160, 243, 8, 0, 0, 244, 100, 0, 208, 199, 233, 7, 108, 131, 68, 3] [221, 63, 171, 34, 81, 241, 26, 199, 89, 240, 136, 113, 41, 204, 46, 231] = .ok [221, 63, 171, 34, 81, 241, 26, 199, 89, 240, 136, 113, 41, 204, 46, 231] := by decide +kernel

example : Poly1305.authenticate .debug [102, 60, 234, 25, 15, 251, 131, 216, 149, 147, 243, 244, 118, 182, 188, 36, 215, 230, 121, 16, 126, 162, 106, 219, 140, 175, 102, 82, 208, 101, 97, 54] [72, 68, 61, 11, 176, 210, 17, 9, 200, 154, 16, 11, 92, 226, 194, 8] [131, 20, 156, 105, 181, 97, 221, 136, 41, 138, 23, 152, 177, 7, 22, 239] = .ok [14, 225, 193, 107, 183, 63, 15, 79, 209, 152, 129, 117, 60, 1, 205, 190] := by decide +kernel

example : Poly1305.authenticate .debug [171, 8, 18, 114, 74, 127, 30, 52, 39, 66, 203, 237, 55, 77, 148, 209, 54, 198, 184, 121, 93, 69, 179, 129, 152, 48, 242, 192, 68, 145, 250, 240, 153, 12, 98, 228, 139, 128, 24, 178, 195, 228, 160, 250, 49, 52, 203, 103, 250, 131, 225, 88, 201, 148, 217, 97, 196, 203, 33, 9, 92, 27, 249] [18, 151, 106, 8, 196, 66, 109, 12, 232, 168, 36, 7, 196, 244, 130, 7] [128, 248, 194, 10, 167, 18, 2, 209, 226, 145, 121, 203, 203, 85, 90, 87] = .ok [81, 84, 173, 13, 44, 178, 110, 1, 39, 79, 197, 17, 72, 73, 31, 27] := by decide +kernel

example : ((ChaCha20.new [0, 0, 0, 0, 0, 0, 0, 0, 0, 0, 0, 0, 0, 0, 0, 0, 0, 0, 0, 0, 0, 0, 0, 0, 0, 0, 0, 0, 0, 0, 0, 0] [0, 0, 0, 0, 0, 0, 0, 0, 0, 0, 0, 0] >>= fun c => ChaCha20.encrypt .debug c (List.replicate 64 0)) >>= fun r => .ok r.1) = .ok [118, 184, 224, 173, 160, 241, 61, 144, 64, 93, 106, 229, 83, 134, 189, 40, 189, 210, 25, 184, 160, 141, 237, 26, 168, 54, 239, 204, 139, 119, 13, 199, 218, 65, 89, 124, 81, 87, 72, 141, 119, 36, 224, 63, 184, 216, 74, 55, 106, 67, 184, 244, 21, 24, 161, 28, 195, 135, 182, 105, 178, 238, 101, 134] := by decide +kernel

example : ((ChaCha20.new [0, 0, 0, 0, 0, 0, 0, 0, 0, 0, 0, 0, 0, 0, 0, 0, 0, 0, 0, 0, 0, 0, 0, 0, 0, 0, 0, 0, 0, 0, 0, 1] [0, 0, 0, 0, 0, 0, 0, 0, 0, 0, 0, 0] >>= fun c => ChaCha20.encrypt .debug c (List.replicate 64 0)) >>= fun r => .ok r.1) = .ok [69, 64, 240, 90, 159, 31, 178, 150, 215, 115, 110, 123, 32, 142, 60, 150, 235, 79, 225, 131, 70, 136, 210, 96, 79, 69, 9, 82, 237, 67, 45, 65, 187, 226, 160, 182, 234, 117, 102, 210, 165, 209, 231, 226, 13, 66, 175, 44, 83, 215, 146, 177, 196, 63, 234, 129, 126, 154, 210, 117, 174, 84, 105, 99] := by decide +kernel

example : ((ChaCha20.new [0, 0, 0, 0, 0, 0, 0, 0, 0, 0, 0, 0, 0, 0, 0, 0, 0, 0, 0, 0, 0, 0, 0, 0, 0, 0, 0, 0, 0, 0, 0, 0] [0, 0, 0, 0, 0, 0, 0, 0, 0, 0, 0, 1] >>= fun c => ChaCha20.encrypt .debug c (List.replicate 64 0)) >>= fun r => .ok r.1) = .ok [222, 156, 186, 123, 243, 214, 158, 245, 231, 134, 220, 99, 151, 63, 101, 58, 11, 73, 224, 21, 173, 191, 247, 19, 79, 203, 125, 241, 55, 130, 16, 49, 232, 90, 5, 2, 120, 167, 8, 69, 39, 33, 79, 115, 239, 199, 250, 91, 82, 119, 6, 46, 183, 160, 67, 62, 68, 95, 65, 227, 26, 250, 183, 87] := by decide +kernel

example : ((ChaCha20.new [0, 0, 0, 0, 0, 0, 0, 0, 0, 0, 0, 0, 0, 0, 0, 0, 0, 0, 0, 0, 0, 0, 0, 0, 0, 0, 0, 0, 0, 0, 0, 0] [1, 0, 0, 0, 0, 0, 0, 0, 0, 0, 0, 0] >>= fun c => ChaCha20.encrypt .debug c (List.replicate 64 0)) >>= fun r => .ok r.1) = .ok [61, 180, 29, 58, 160, 211, 41, 40, 93, 230, 242, 37, 230, 226, 75, 213, 156, 154, 23, 0, 105, 67, 213, 201, 182, 128, 227, 135, 59, 220, 104, 58, 88, 25, 70, 152, 153, 152, 150, 144, 194, 129, 205, 23, 201, 97, 89, 175, 6, 130, 181, 185, 3, 70, 138, 97, 245, 2, 40, 207, 9, 98, 43, 90] := by decide +kernel

example : ((ChaCha20.new [0, 1, 2, 3, 4, 5, 6, 7, 8, 9, 10, 11, 12, 13, 14, 15, 16, 17, 18, 19, 20, 21, 22, 23, 24, 25, 26, 27, 28, 29, 30, 31] [0, 1, 2, 3, 4, 5, 6, 7, 8, 9, 10, 11] >>= fun c => ChaCha20.encrypt .debug c (List.replicate 128 0)) >>= fun r => .ok r.1) = .ok [16, 58, 241, 17, 193, 139, 84, 157, 57, 36, 143, 176, 125, 96, 194, 154, 149, 209, 219, 136, 216, 146, 247, 180, 175, 112, 154, 95, 212, 122, 158, 75, 213, 255, 154, 101, 141, 213, 44, 112, 139, 239, 31, 15, 98, 43, 55, 71, 4, 15, 163, 85, 19, 0, 177, 242, 147, 21, 10, 136, 98, 13, 95, 237, 137, 251, 8, 0, 41, 23, 165, 64, 183, 131, 63, 243, 152, 29, 14, 99, 201, 112, 178, 231, 81, 116, 173, 185, 230, 151, 47, 197, 117, 192, 166, 60, 236, 128, 44, 243, 230, 30, 177, 152, 55, 50, 118, 216, 101, 148, 143, 35, 126, 132, 169, 116, 253, 40, 184, 155, 18, 184, 217, 7, 144, 79, 158, 214] := by decide +kernel

example : Aead.encrypt .debug [78, 124, 134, 194, 178, 159, 186, 121, 39, 150, 125, 52, 41, 43, 133, 188, 16, 113, 83, 255, 47, 98, 231, 194, 142, 108, 49, 193, 59, 172, 221, 210] [63, 143, 158, 193, 12, 74, 32, 200, 246, 116, 243, 3] [20, 0, 0, 12, 82, 176, 48, 66, 102, 149, 142, 132, 230, 204, 153, 206] [0, 0, 0, 0, 0, 0, 0, 0, 22, 3, 3, 0, 16] = .ok [117, 99, 17, 144, 9, 64, 124, 90, 213, 214, 44, 59, 54, 152, 33, 165, 154, 213, 114, 86, 225, 115, 178, 58, 128, 128, 233, 241, 148, 121, 248, 25] := by decide +kernel

example : Aead.decrypt .debug [78, 124, 134, 194, 178, 159, 186, 121, 39, 150, 125, 52, 41, 43, 133, 188, 16, 113, 83, 255, 47, 98, 231, 194, 142, 108, 49, 193, 59, 172, 221, 210] [63, 143, 158, 193, 12, 74, 32, 200, 246, 116, 243, 3] [117, 99, 17, 144, 9, 64, 124, 90, 213, 214, 44, 59, 54, 152, 33, 165, 154, 213, 114, 86, 225, 115, 178, 58, 128, 128, 233, 241, 148, 121, 248, 25] [0, 0, 0, 0, 0, 0, 0, 0, 22, 3, 3, 0, 16] = .ok [20, 0, 0, 12, 82, 176, 48, 66, 102, 149, 142, 132, 230, 204, 153, 206] := by decide +kernel

end Husk.Tests
