/- Outcome of a modelled C++ routine. -/
namespace Ecm

universe u v

/-- Outcome of a routine: a value, a failure reported through ECMECH_FAIL
    (src/ecmech/ECMech_port.h, which throws on the host), or a use that the C++
    leaves without a usable value (division by zero producing inf/NaN, out of
    range access, failed assert, signed overflow). -/
inductive Out (α : Type u) where
  | ok (a : α)
  | fail (msg : String)
  | undef (why : String)

namespace Out

/-- sequencing: stop at the first failure -/
def bind {α : Type u} {β : Type v} (x : Out α) (f : α → Out β) : Out β :=
  match x with
  | ok a => f a
  | fail m => fail m
  | undef w => undef w

end Out
end Ecm
