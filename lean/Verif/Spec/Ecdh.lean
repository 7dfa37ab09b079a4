import Verif.Spec.P256
import Verif.Base.Bytes
/-! Uncompressed encoding of points of P-256 (SEC 1, 2.3.3; RFC 4492, 5.4.1) and the Diffie-Hellman secret (RFC 4492, 5.10: the
x-coordinate, 32 bytes). The point at infinity has no such encoding; as the code never refuses it, it is given the bytes of (0, 0), which
is not a point of the curve. -/

namespace Husk
namespace Spec
namespace P256

def encode : curve.Point → Bytes
  | .zero => 4 :: (beBytes 32 0 ++ beBytes 32 0)
  | .some x y _ => 4 :: (beBytes 32 x.val ++ beBytes 32 y.val)

def xBytes : curve.Point → Bytes
  | .zero => beBytes 32 0
  | .some x _ _ => beBytes 32 x.val

end P256
end Spec
end Husk
