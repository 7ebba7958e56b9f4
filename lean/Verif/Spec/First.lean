import Verif.Spec.History
/-! # Specification vocabulary: orders that have not traded (C76, C85) -/
namespace Verif.Spec
open Verif Verif.Dex

/-- Nothing of the order has been traded: all of the amount is open, all of the offer remains, nothing was received. -/
def NotTraded (o : OrderRec) : Prop := o.openAmt = o.amount ∧ o.remaining = o.offer ∧ o.received = 0

end Verif.Spec
