import Verif.Prim
/-! # Growth rule, size.hpp -/
namespace SC

/-- `MAX_BUCKET_BYTESIZE`, size.hpp:7 -/
abbrev maxBucketByteSize : Nat := 255

/-- `arbitrary_resize::resize`, size.hpp:100-103.  `newsize * 1.5f` is computed in single precision and
converted back to `size_t`; this is `⌊newsize*3/2⌋` for `newsize < 2^23`, and more than 255 for larger arguments,
where the minimum is 255 in any case. -/
def arbResize (n : Nat) : Nat := if n < maxBucketByteSize / 4 then n * 2 else min (n * 3 / 2) 255

end SC
