import Verif.Model.Batch
/-! # What a handler leaves alone -/
namespace Verif.Spec
open Verif Verif.Dex

/-- Everything but orders, counters and balances is the same. -/
structure SameFrame (s t : State) : Prop where
  params : t.params = s.params
  pairs : t.pairs = s.pairs
  pools : t.pools = s.pools
  deposits : t.deposits = s.deposits
  withdraws : t.withdraws = s.withdraws
  lastPairId : t.lastPairId = s.lastPairId
  lastPoolId : t.lastPoolId = s.lastPoolId
  time : t.time = s.time
  height : t.height = s.height
  shortfall : t.shortfall = s.shortfall

end Verif.Spec
