import Verif.Model.Num
/-!
# Ranges of the primitive integer types (tests, not proofs)
-/
namespace BSQ.IntTy

example : (u8.lo, u8.hi) = (0, 255) := by decide
example : (u16.lo, u16.hi) = (0, 65535) := by decide
example : (u32.lo, u32.hi) = (0, 4294967295) := by decide
example : (u64.lo, u64.hi) = (0, 18446744073709551615) := by decide
example : (u128.lo, u128.hi) = (0, 340282366920938463463374607431768211455) := by decide
example : (i8.lo, i8.hi) = (-128, 127) := by decide
example : (i16.lo, i16.hi) = (-32768, 32767) := by decide
example : (i32.lo, i32.hi) = (-2147483648, 2147483647) := by decide
example : (i64.lo, i64.hi) = (-9223372036854775808, 9223372036854775807) := by decide
example : (i128.lo, i128.hi) =
    (-170141183460469231731687303715884105728, 170141183460469231731687303715884105727) := by decide
example : (i8.wrap 200, i8.wrap (-129), u8.wrap (-1), u8.wrap 256) = (-56, 127, 255, 0) := by decide

end BSQ.IntTy
