import Verif.Props.Tick
import Verif.Props.Order
import Verif.Props.Match
import Verif.Props.View
import Verif.Props.Liquidity
import Verif.Props.Pool
import Verif.Props.Bank
import Verif.Props.Orders
import Verif.Props.History
import Verif.Props.Batch
import Verif.Props.PairBatch
import Verif.Props.Accept
import Verif.Props.Keys
import Verif.Props.Util
import Verif.Props.Price
import Verif.Props.Msgs
import Verif.Props.Trade
import Verif.Props.Escrow
import Verif.Props.Genesis
import Verif.Proofs.GenesisValid
import Verif.Props.GenesisValid
import Verif.Props.Invariants
import Verif.Props.Book
import Verif.Props.Sides
import Verif.Proofs.LiquidityLower
import Verif.Proofs.Ladder
import Verif.Props.Ladder
import Verif.Proofs.Uncross
import Verif.Props.Uncross
import Verif.Proofs.Direction
import Verif.Proofs.DirectionLow
import Verif.Props.Direction
import Verif.Proofs.Conserve
import Verif.Proofs.MatchTotal
import Verif.Proofs.Halt
import Verif.Proofs.HaltApply
import Verif.Proofs.HaltPay
import Verif.Proofs.HaltMatch
import Verif.Proofs.HaltRequests
import Verif.Proofs.HaltBatch
import Verif.Proofs.HighDemo
import Verif.Spec.Halt
import Verif.Props.Halt
import Verif.Model.KVStore
import Verif.Model.Query
import Verif.Spec.Disk
import Verif.Spec.Page
import Verif.Proofs.KVStore
import Verif.Proofs.Rep
import Verif.Proofs.Disk
import Verif.Proofs.DiskReq
import Verif.Proofs.DiskRead
import Verif.Proofs.DiskHistory
import Verif.Proofs.DiskDemo
import Verif.Proofs.Page
import Verif.Proofs.QueryRead
import Verif.Proofs.QueryDenom
import Verif.Proofs.QueryPool
import Verif.Props.Disk
import Verif.Props.Query
import Verif.Proofs.Sqrt
import Verif.Proofs.RangedRoot
import Verif.Props.Sqrt
import Verif.Proofs.RangedSign
import Verif.Proofs.Ranges
import Verif.Props.Ranges
import Verif.Model.Checked
import Verif.Proofs.Checked
import Verif.Proofs.CheckedPool
import Verif.Proofs.CheckedRanged
import Verif.Proofs.CheckedOrder
import Verif.Proofs.CheckedDeposit
import Verif.Proofs.CheckedDemo
import Verif.Props.Checked
import Verif.Proofs.TickPrices
import Verif.Props.TickPrices
import Verif.Proofs.BatchUncross
import Verif.Props.BatchUncross
import Verif.Model.Proto
import Verif.Model.Records
import Verif.Spec.Wire
import Verif.Spec.WireFormat
import Verif.Proofs.Proto
import Verif.Proofs.Records
import Verif.Proofs.Format
import Verif.Proofs.RecordFormat
import Verif.Proofs.Merge
import Verif.Props.Wire
import Verif.Model.DiskBytes
import Verif.Spec.DiskBytes
import Verif.Proofs.DiskBytes
import Verif.Props.DiskBytes
import Verif.Model.Cli
import Verif.Spec.Cli
import Verif.Proofs.Cli
import Verif.Props.Cli
import Verif.Props.Market
import Verif.Props.Events
import Verif.Props.Statement
import Verif.Model.Address
import Verif.Props.Address
import Verif.Proofs.CancelTotal
import Verif.Props.Cancel
import Verif.Spec.First
import Verif.Proofs.FirstBatch
import Verif.Props.First
import Verif.Props.FirstPriority
import Verif.Props.RangedAccept
import Verif.Props.UtilBytes
