import Verif.Model.DiskBytes
import Verif.Spec.WireFormat
import Verif.Spec.Disk
/-! # When the records of a state fit their encoding (C80) -/
namespace Verif.Spec
open Verif Verif.Dex Verif.Dex.KV

/-- Different denoms and different accounts have different strings. -/
structure Texts (txt : Enc) : Prop where
  denom : ∀ d d', txt.denom d = txt.denom d' → d = d'
  addr : ∀ a a', txt.addr a = txt.addr a' → a = a'

/-- The numbers in the records fit their fields (64 bits, 256 bits, 315 bits, years up to 9999), and no record takes 2^63 bytes. -/
structure Fitting (txt : Enc) (s : State) : Prop where
  pairs : ∀ p ∈ s.pairs, (Disk.pair txt p).Fits ∧ (Disk.pair txt p).wire.length < 2 ^ 63
  pools : ∀ p ∈ s.pools, (Disk.pool txt p).Fits ∧ (Disk.pool txt p).wire.length < 2 ^ 63
  deposits : ∀ r ∈ s.deposits, (Disk.deposit txt r).Fits ∧ (Disk.deposit txt r).wire.length < 2 ^ 63
  withdraws : ∀ r ∈ s.withdraws, (Disk.withdraw txt r).Fits ∧ (Disk.withdraw txt r).wire.length < 2 ^ 63
  orders : ∀ o ∈ s.orders, (Disk.order txt o).Fits ∧ (Disk.order txt o).wire.length < 2 ^ 63

end Verif.Spec
