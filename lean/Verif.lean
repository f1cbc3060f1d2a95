import Verif.Model.Market
import Verif.Proofs.SlabApi
import Verif.Proofs.QueueInv
import Verif.Proofs.RefineMarket
import Verif.Proofs.Steps
import Verif.Proofs.Reach
import Verif.Proofs.SelfTrade
import Verif.Proofs.Dispatch
import Verif.Spec.Demo
import Verif.Props.Matching
import Verif.Props.Posting
import Verif.Props.Book
import Verif.Props.Engine
import Verif.Props.Failure
import Verif.Props.Cancel
import Verif.Props.Queue
import Verif.Props.SlabMap
import Verif.Props.History
import Verif.Props.Price
import Verif.Props.Layout
import Verif.Props.Wire
import Verif.Props.Accounts
import Verif.Props.Chain
import Verif.Props.Drain
import Verif.Model.Client
import Verif.Spec.Client
import Verif.Proofs.Client
import Verif.Proofs.Tidy
import Verif.Props.Client
import Verif.Spec.Relate
import Verif.Proofs.Relate
import Verif.Props.Relate
import Verif.Spec.Custody
import Verif.Props.Custody
import Verif.Spec.Economy
import Verif.Proofs.Economy
import Verif.Props.Economy
import Verif.Spec.RawBytes
import Verif.Props.RawBytes
import Verif.Model.Bindings
import Verif.Spec.Runtime
import Verif.Props.SelfCheck
import Verif.Proofs.SelfCheck
import Verif.Model.Check
import Verif.Props.Register
import Verif.Props.Runtime
import Verif.Proofs.Stale
import Verif.Model.Wrapping
import Verif.Spec.Release
import Verif.Proofs.SummaryFits
import Verif.Proofs.Wrapping
import Verif.Proofs.WrappingLoad
import Verif.Proofs.WrappingMarket
import Verif.Proofs.QueueHeads
import Verif.Proofs.WrappingChain
import Verif.Props.Wrapping
import Verif.Proofs.Local
import Verif.Props.Parallel
import Verif.Model.Errors
import Verif.Spec.Verdict
import Verif.Proofs.Verdict
import Verif.Props.Verdict
import Verif.Model.Wasm
import Verif.Spec.Wasm
import Verif.Proofs.Wasm
import Verif.Props.Wasm
import Verif.Model.WasmEdit
import Verif.Spec.WasmEdit
import Verif.Proofs.WasmBytes
import Verif.Proofs.WasmTree
import Verif.Props.WasmEdit
import Verif.Tests.Unit
import Verif.Tests.Functional
import Verif.Props.Stuck
import Verif.Model.Setup
import Verif.Props.Setup
import Verif.Proofs.Commute
import Verif.Props.Commute
import Verif.Spec.Rebuild
import Verif.Props.Rebuild
import Verif.Spec.Best
import Verif.Proofs.Best
import Verif.Props.Best
import Verif.Spec.Depth
import Verif.Proofs.Depth
import Verif.Props.Depth
import Verif.Spec.Place
import Verif.Props.Place
import Verif.Props.Room
import Verif.Proofs.Purge
import Verif.Spec.Own
import Verif.Props.Purge
import Verif.Model.Align
import Verif.Props.Align
import Verif.Model.Cost
import Verif.Proofs.CostErase
import Verif.Proofs.Cost
import Verif.Props.Cost
import Verif.Spec.Units
import Verif.Proofs.Units
import Verif.Props.Units
import Verif.Spec.Reprice
import Verif.Proofs.Reprice
import Verif.Props.Reprice
import Verif.Spec.Count
import Verif.Spec.Compete
import Verif.Proofs.Count
import Verif.Proofs.Compete
import Verif.Props.Count
import Verif.Props.Compete
import Verif.Props.Share
import Verif.Spec.Wallet
import Verif.Props.Wallet
import Verif.Spec.Worth
import Verif.Props.Worth
import Verif.Props.Access
import Verif.Props.First
import Verif.Props.Exchange
import Verif.Spec.Quiet
import Verif.Props.Quiet
import Verif.Props.Crank
import Verif.Props.Split
import Verif.Props.WasmCheck
import Verif.Props.WasmErrors
import Verif.Props.Life
import Verif.Props.Slots
import Verif.Props.SlotBytes
import Verif.Props.Keep
import Verif.Props.Gone
import Verif.Props.EventSlots
import Verif.Props.Volume
