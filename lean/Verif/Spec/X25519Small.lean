import Verif.Spec.X25519

/-!
# Specification: the u-coordinates of points of small order

The values that D. J. Bernstein, "Curve25519: high-speed Diffie-Hellman speed records", lists for checking
contributory behaviour (RFC 7748, section 6.1 and section 7); independent of the model.
-/

namespace Salt.Spec

/-- The u-coordinates of the points of the curve and of its twist whose order divides 8. -/
def smallOrderU : List Fp :=
  [0, 1, -1, 325606250916557431795983626356110631294008115727848805560023387167927233504,
   39382357235489614581723060781553021112529911719440698176882885853963445705823]

end Salt.Spec
