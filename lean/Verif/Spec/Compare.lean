import Verif.Spec.Observe
import Verif.Spec.Engine
/-
Comparing a market with the reference engine, and with another market.
-/
namespace AOB
variable {C : Type}

/-- The reference market with the parameters of a configuration. -/
def Config.reference (c : Config) : RefMarket C := RefMarket.create c.minBase c.tick c.capBids c.capAsks c.capEvents

/-- `m` shows exactly what the reference market `a` holds. -/
structure Shows (m : Market C) (a : RefMarket C) : Prop where
  bids : resting m .bid = a.bids
  asks : resting m .ask = a.asks
  events : pending m = a.events
  seq : m.queue.header.seqNum = a.seq
  minBase : m.minBaseOrderSize = a.minBase
  tick : m.tickSize = a.tick

/-- Two markets of the same configuration that show the same: same orders, same pending events, same next sequence
number. Their trees, slots, free lists and ring positions may differ. -/
structure SameShow (m1 m2 : Market C) : Prop where
  bids : resting m1 .bid = resting m2 .bid
  asks : resting m1 .ask = resting m2 .ask
  events : pending m1 = pending m2
  seq : m1.queue.header.seqNum = m2.queue.header.seqNum

end AOB
