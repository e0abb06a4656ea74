/-!
# Model of `Alignment.h`
-/
namespace Verif.Align

/-- `CC_ALIGN` (`Alignment.h` 29) on 64-bit words. -/
def align (x a : BitVec 64) : BitVec 64 := (x + a - 1) &&& ~~~(a - 1)

end Verif.Align
