import Verif.Spec.Demo
import Verif.Spec.History
import Verif.Spec.Containers
import Verif.Spec.Compare
import Verif.Spec.Custody
/-
Executable copies of the conclusions of the market, slab and queue theorems, evaluated along random histories. A reported
name means: the statement of that theorem is false for this program. Used by tools/mutate.py on wrong programs (and on the
right one, where nothing must be reported).
-/
open AOB
namespace Mon
abbrev M := Market DemoCb
abbrev P := NewOrderParams DemoCb
abbrev O := Order DemoCb
abbrev E := Event DemoCb

def worse : Side → Nat → Nat → Bool
  | .bid, a, b => decide (a < b)
  | .ask, a, b => decide (b < a)
def acc (s : Side) (l p : Nat) : Bool := match s with | .bid => decide (p ≤ l) | .ask => decide (l ≤ p)
def val (s : Side) (b p : Nat) : Nat := match s with
  | .bid => (b * p + (2 ^ 32 - 1)) / 2 ^ 32
  | .ask => b * p / 2 ^ 32
def pairs {α : Type} : List α → List (α × α)
  | [] => []
  | x :: xs => xs.map (fun y => (x, y)) ++ pairs xs
def splits {α : Type} (l : List α) : List (List α × List α) := (List.range (l.length + 1)).map (fun i => (l.take i, l.drop i))
def same (m m' : M) : Bool := decide (resting m .bid = resting m' .bid) && decide (resting m .ask = resting m' .ask) &&
  decide (pending m = pending m')
def imp (a b : Bool) : Bool := !a || b
infixr:25 " ==> " => imp

/-- Statements about one market. -/
def state (c : Config) (m : M) (n : Nat) : List (String × Bool) :=
  let bids := resting m .bid; let asks := resting m .ask
  [("C01", bids.all fun b => asks.all fun s => decide (b.price < s.price)),
   ("C02_rank", (pairs bids).all (fun x => decide (x.2.price ≤ x.1.price)) && (pairs asks).all (fun x => decide (x.1.price ≤ x.2.price))),
   ("reads_ok", (m.orders .bid).toOption.isSome && (m.orders .ask).toOption.isSome && m.events.toOption.isSome),
   ("C12_valid", (bids ++ asks).all fun o => decide (c.minBase ≤ o.qty) && decide (o.price % c.tick = 0) && decide (0 < o.price) &&
      decide (o.price < 2 ^ 64) && decide (o.qty < 2 ^ 64)),
   ("C12_parameters", decide (m.minBaseOrderSize = c.minBase) && decide (m.tickSize = c.tick) && decide (bids.length ≤ c.capBids) &&
      decide (asks.length ≤ c.capAsks) && decide ((pending m).length ≤ c.capEvents)),
   ("C34", decide (m.book.getSpread = .ok (bids.head?.map Order.price, asks.head?.map Order.price))),
   ("C37_is_empty", m.book.isEmpty == (bids.isEmpty && asks.isEmpty)),
   ("C11_resting_side", bids.all (fun o => getSideFromOrderId o.id == .bid) && asks.all (fun o => getSideFromOrderId o.id == .ask)),
   ("C27_market", match m.queue.iter with
      | .error _ => false
      | .ok l => decide (l.length = m.queue.len) && decide (l.map EventRef.toEvent = pending m) &&
          (List.range (l.length + 2)).all fun i => decide (m.queue.peekAt i = .ok l[i]?)),
   ("C26_consume", [0, 1, 2, 3, 100].all fun k => match m.consumeEvents k with
      | .error _ => false
      | .ok m' => decide (pending m' = (pending m).drop k) && decide (resting m' .bid = bids) && decide (resting m' .ask = asks) &&
          decide (m'.queue.header.seqNum = m.queue.header.seqNum)),
   ("C21", [Side.bid, .ask].all fun side => (resting m side).all fun o => match m.cancelOrder o.id with
      | .error _ => false
      | .ok (s, m') => decide (s = ⟨none, o.qty, o.qty * o.price / 2 ^ 32, 0⟩) &&
          decide (resting m' side = (resting m side).filter (fun x => x.id != o.id)) &&
          decide (resting m' side.opposite = resting m side.opposite) && decide (pending m' = pending m)),
   ("C23", [Side.bid, .ask].all fun side => (resting m side).all fun o => (m.cancelOrder o.id).toOption.isSome),
   ("C22", (List.range (n + 2)).all fun k => ([1, 2 ^ 32, 3 * 2 ^ 32] ++ (bids ++ asks).map Order.price).all fun pr => [Side.bid, .ask].all fun side =>
      let id := mkOrderId side pr k
      (!(bids ++ asks).any (fun o => o.id == id)) ==> match m.cancelOrder id with
        | .error (.ao .orderNotFound) => true
        | .error .panic => decide ((resting m (getSideFromOrderId id)).length = 1)
        | _ => false)]

/-- `mass_cancel_orders` on one list of ids. -/
def mass (m : M) (ids : List Nat) : List (String × Bool) :=
  let all := resting m .bid ++ resting m .ask
  let os := ids.filterMap (fun i => all.find? (fun o => o.id == i))
  let ok := decide (os.map Order.id = ids) && decide ids.Nodup && decide ((os.map Order.qty).sum < 2 ^ 64) &&
    decide ((os.map Order.value).sum < 2 ^ 64)
  [("C24_mass_cancel", ok ==> match m.massCancelOrders ids with
      | .error _ => false
      | .ok (s, m') => decide (s = ⟨none, (os.map Order.qty).sum, (os.map Order.value).sum, 0⟩) &&
          [Side.bid, .ask].all (fun side => decide (resting m' side = (resting m side).filter (fun x => decide (x.id ∉ ids)))) &&
          decide (pending m' = pending m)),
   ("C24_only_if", (m.massCancelOrders ids).toOption.isSome ==> ok),
   ("C24_all_or_nothing", (!ok) ==> (!(m.massCancelOrders ids).toOption.isSome && same (m.step (.massCancelOrders ids)) m)),
   ("C24_order_irrelevant", match m.massCancelOrders ids, m.massCancelOrders ids.reverse with
      | .ok (s, m'), .ok (s2, m2) => decide (s = s2) && same m' m2
      | .ok _, .error _ => false
      | _, _ => true),
   ("C24_as_single", match m.massCancelOrders ids with
      | .ok (_, m') => same m' (m.run (ids.map .cancelOrder))
      | _ => true)]

/-- Statements about a successful new order. -/
def placed (c : Config) (m : M) (p : P) (s : OrderSummary) (m' : M) : List (String × Bool) :=
  let em := emitted m m'
  let opp := resting m p.side.opposite; let opp' := resting m' p.side.opposite
  let own := resting m p.side; let own' := resting m' p.side
  let fs := fills em
  let self (cb : DemoCb) : Bool := decide (p.callbackInfo.user = cb.user)
  let names (x : O) : Bool := em.any fun e => e.id == x.id
  let full := decide (own.length = c.cap p.side)
  [("C02_priority", (pairs opp).all fun (x, y) => names y ==> (opp'.all (fun o => o.id != x.id) &&
      (splits em).any fun (e1, e2) => e1.all (fun e => e.id != y.id) && e2.all (fun e => e.id != x.id) && !(outsOf x.id e1).isEmpty)),
   ("C03", fs.all fun e => e.makerSide == p.side.opposite && opp.any (fun o => o.id == e.id) && acc p.side p.limitPrice (e.id / 2 ^ 64)),
   ("C04", decide (s.totalBaseQty ≤ p.maxBaseQty) && decide (s.totalQuoteQty ≤ p.maxQuoteQty) &&
      decide (sumBase fs + s.totalBaseQtyPosted ≤ p.maxBaseQty) &&
      decide (sumQuote fs + val p.side s.totalBaseQtyPosted p.limitPrice ≤ p.maxQuoteQty)),
   ("C05", decide (s.totalBaseQty = sumBase fs + s.totalBaseQtyPosted) &&
      decide (s.totalQuoteQty = sumQuote fs + val p.side s.totalBaseQtyPosted p.limitPrice)),
   ("C06", em.all fun e => match e with | .fill ts id b q _ _ => ts == p.side && decide (0 < b) && decide (0 < q) && decide (q = val p.side b (id / 2 ^ 64)) | _ => true),
   ("C50", em.all fun e => match e with | .fill _ id b q _ _ => (match p.side with
        | .bid => decide (b * (id / 2 ^ 64) ≤ q * 2 ^ 32) && decide (q * 2 ^ 32 < b * (id / 2 ^ 64) + 2 ^ 32)
        | .ask => decide (q * 2 ^ 32 ≤ b * (id / 2 ^ 64)) && decide (b * (id / 2 ^ 64) < q * 2 ^ 32 + 2 ^ 32)) | _ => true),
   ("C50_total", (p.side == .bid) ==> decide (sumQuote fs ≤ (fs.map (fun e => (e.base * p.limitPrice + (2 ^ 32 - 1)) / 2 ^ 32)).sum)),
   ("C48_opposite_side", decide (opp' = opp.filterMap (survivor em))),
   ("C48_own_side", match s.postedOrderId with
      | none => decide (own' = own)
      | some id => (splits (own.filterMap (survivor em))).any fun (l, r) =>
          decide (own' = l ++ ⟨id, s.totalBaseQtyPosted, p.callbackInfo⟩ :: r)),
   ("C08", [Side.bid, .ask].all fun side => (resting m side).all fun x =>
      decide (sumBase (fillsOf x.id em) ≤ x.qty) &&
      (if (resting m' side).any (fun o => o.id == x.id) then decide (outsOf x.id em = []) else
        decide (outsOf x.id em = [.out side x.id (x.qty - sumBase (fillsOf x.id em)) x.cb]))),
   ("C09", em.all fun e => (resting m e.makerSide).any (fun o => o.id == e.id && decide (o.cb = e.makerCb)) &&
      (match e with | .fill _ _ _ _ _ tc => decide (tc = p.callbackInfo) | _ => true)),
   ("C48_unnamed", [Side.bid, .ask].all fun side => (resting m side).all fun x => (!names x) ==> decide (x ∈ resting m' side)),
   ("C48_nothing_appears", [Side.bid, .ask].all fun side => (resting m' side).all fun y =>
      (resting m side).any (fun x => x.id == y.id && decide (x.cb = y.cb) && decide (y.qty = x.qty - sumBase (fillsOf x.id em))) ||
      (side == p.side && decide (s.postedOrderId = some y.id) && decide (y.qty = s.totalBaseQtyPosted) && decide (y.cb = p.callbackInfo))),
   ("C13", decide ((opp.filter names).length ≤ p.matchLimit) && decide (em.length ≤ 2 * p.matchLimit + 1)),
   ("C14_post_only", p.postOnly ==> (fs.isEmpty && decide (opp' = opp))),
   ("C14_no_post", (!p.postAllowed) ==> (s.postedOrderId.isNone && decide (s.totalBaseQtyPosted = 0) && decide (own' = own))),
   ("C16_no_self_trade", decide (p.selfTradeBehavior ≠ .decrementTake) ==> fs.all fun e => !self e.makerCb),
   ("C16_cancel_provide", decide (p.selfTradeBehavior = .cancelProvide) ==> opp.all fun x => (self x.cb && names x) ==>
      (decide (em.filter (fun e => e.id == x.id) = [.out p.side.opposite x.id x.qty x.cb]) && opp'.all fun o => o.id != x.id)),
   ("C53", (splits em).all fun x => match x with
      | (e1, .fill _ id b _ _ _ :: _) => opp.any (fun x => x.id == id &&
        decide (b = min (min (x.qty - sumBase (fillsOf id e1)) (p.maxBaseQty - sumBase (fills e1))) ((p.maxQuoteQty - sumQuote (fills e1)) * 2 ^ 32 / x.price)))
      | _ => true),
   ("C49_appended", decide (pending m' = pending m ++ em)),
   ("C15_rule", s.postedOrderId.isSome == (p.postAllowed && decide (rounds p em < p.matchLimit) &&
      opp'.all (fun o => !acc p.side p.limitPrice o.price) &&
      decide (c.minBase ≤ min ((p.maxQuoteQty - sumQuote fs) * 2 ^ 32 / p.limitPrice) (p.maxBaseQty - sumBase fs)) &&
      (decide (own.length < c.cap p.side) || (match own.getLast? with | some w => worse p.side w.price p.limitPrice | none => false)))),
   ("C15_posted", match s.postedOrderId with
      | none => true
      | some id => decide (s.totalBaseQtyPosted = min ((p.maxQuoteQty - sumQuote fs) * 2 ^ 32 / p.limitPrice) (p.maxBaseQty - sumBase fs)) &&
          decide (id / 2 ^ 64 = p.limitPrice) && (splits own').any fun x => match x with
            | (l, o :: r) => decide (o = ⟨id, s.totalBaseQtyPosted, p.callbackInfo⟩) && l.all (fun o => !worse p.side o.price p.limitPrice) &&
                r.all (fun o => worse p.side o.price p.limitPrice)
            | _ => false),
   ("C15_not_posted", s.postedOrderId.isNone ==> (decide (s.totalBaseQtyPosted = 0) && decide (own' = own))),
   ("C17_eviction", (full && s.postedOrderId.isSome) ==> match own.getLast?, em.getLast? with
      | some w, some e => worse p.side w.price p.limitPrice && decide (e = .out p.side w.id w.qty w.cb) &&
          em.dropLast.all (fun e => e.makerSide == p.side.opposite) && (splits own.dropLast).any fun (l, r) =>
            decide (own' = l ++ ⟨s.postedOrderId.getD 0, s.totalBaseQtyPosted, p.callbackInfo⟩ :: r)
      | _, _ => false),
   ("C17_no_eviction", (decide (own.length < c.cap p.side) || s.postedOrderId.isNone) ==>
      (em.all (fun e => e.makerSide == p.side.opposite) && own.all fun x => decide (x ∈ own'))),
   ("C17_refused", (full && own.all (fun o => !worse p.side o.price p.limitPrice)) ==> (s.postedOrderId.isNone && decide (own' = own))),
   ("C47", (p.postOnly || decide (p.matchLimit = 0) || decide (p.maxBaseQty = 0) || decide (p.maxQuoteQty = 0) ||
        opp.all (fun o => !acc p.side p.limitPrice o.price)) ==>
      (decide (opp' = opp) && fs.isEmpty && (s.postedOrderId.isNone ==> (decide (own' = own) && decide (pending m' = pending m) &&
        decide (s.totalBaseQty = 0) && decide (s.totalQuoteQty = 0))))),
   ("C16_abort_ok", decide (p.selfTradeBehavior = .abortTransaction) ==> match m.newOrder { p with selfTradeBehavior := .decrementTake } with
      | .ok (s2, m2) => decide (s = s2) && same m' m2
      | .error _ => false),
   ("C60", p.postOnly || decide (rounds p em = p.matchLimit) || (match opp'.head? with
      | none => true
      | some o => (!acc p.side p.limitPrice o.price) ||
          let t := min (min o.qty (p.maxBaseQty - sumBase fs)) ((p.maxQuoteQty - sumQuote fs) * 2 ^ 32 / o.price)
          decide (t = 0) || decide (val p.side t o.price = 0))),
   ("C61", opp.all fun x => names x ==> ((self x.cb && decide (p.selfTradeBehavior = .cancelProvide)) ||
      (!(fillsOf x.id em).isEmpty && (opp'.all (fun o => o.id != x.id) == decide (x.qty - sumBase (fillsOf x.id em) < c.minBase))))),
   ("C10_fresh", match s.postedOrderId with | none => true | some id => (own ++ opp).all fun o => o.id != id),
   ("C11_posted", match s.postedOrderId with | none => true | some id => decide (id / 2 ^ 64 = p.limitPrice) && decide (priceFromKey id = p.limitPrice) && getSideFromOrderId id == p.side && decide (id < 2 ^ 128))]

/-- Statements about any new order. -/
def tried (c : Config) (m : M) (p : P) : List (String × Bool) :=
  let r := m.newOrder p
  let bad := decide (p.limitPrice % c.tick ≠ 0) || (p.postAllowed && decide (p.limitPrice < c.tick))
  let err : Option Err := match r with | .error e => some e | .ok _ => none
  [("C18", decide (err ≠ some .panic) && decide (err ≠ some .diverge)),
   ("C19_only_failures", (!bad && err.isSome) ==> (decide (err = some (.ao .eventQueueFull)) ||
      (decide (err = some (.ao .wouldSelfTrade)) && decide (p.selfTradeBehavior = .abortTransaction)))),
   ("C19_bad_price", bad ==> decide (err = some (.ao .invalidLimitPrice))),
   ("C19_success", (!bad && decide ((pending m).length + 2 * p.matchLimit + 1 ≤ c.capEvents) &&
      decide (p.selfTradeBehavior ≠ .abortTransaction)) ==> err.isNone),
   ("C16_abort", decide (p.selfTradeBehavior = .abortTransaction) ==> match m.newOrder { p with selfTradeBehavior := .decrementTake } with
      | .error _ => true
      | .ok (s, m') => if (emitted m m').any (fun e => e.isFill && decide (p.callbackInfo.user = e.makerCb.user)) then
            decide (err = some (.ao .wouldSelfTrade))
          else match r with
            | .ok (s2, m2) => decide (s = s2) && same m' m2
            | .error _ => false),
   ("C20", match r with | .ok _ => true | .error _ => same (m.step (.newOrder p)) m && decide ((m.step (.newOrder p)).queue.header.seqNum = m.queue.header.seqNum))] ++
  (match r with | .ok (s, m') => placed c m p s m' | .error _ => [])

def shows (m : M) (a : RefMarket DemoCb) : Bool := decide (resting m .bid = a.bids) && decide (resting m .ask = a.asks) &&
  decide (pending m = a.events) && decide (m.queue.header.seqNum = a.seq) && decide (m.minBaseOrderSize = a.minBase) && decide (m.tickSize = a.tick)

/-- Statements about the history. -/
def hist (m : M) (L : Log DemoCb) : List (String × Bool) :=
  let all := allResting m
  [("C10_unique", decide (L.posted.map Order.id).Nodup && (pairs L.posted).all (fun (x, y) => decide (seqOfId x.id < seqOfId y.id))),
   ("C07_conservation", L.posted.all fun o => decide (o.qty = sumBase (fillsOf o.id L.events) + sumBase (outsOf o.id L.events) +
      sumQty (ofId o.id L.cancelled) + sumQty (ofId o.id all))),
   ("C07_one_fate", L.posted.all fun o => decide ((outsOf o.id L.events).length + (ofId o.id L.cancelled).length + (ofId o.id all).length = 1)),
   ("C09_from_posting", (L.events ++ pending m).all (fun e => L.posted.any fun x => x.id == e.id && decide (x.cb = e.makerCb)) &&
      (all ++ L.cancelled).all fun o => L.posted.any fun x => x.id == o.id && decide (x.cb = o.cb) && decide (o.qty ≤ x.qty)),
   ("C35", (pairs L.posted).all fun (x0, y0) => [Side.bid, .ask].all fun side =>
      let l := (resting m side).map Order.id
      (decide (x0.id ∈ l) && decide (y0.id ∈ l) && decide (x0.price = y0.price)) ==> decide (l.idxOf x0.id < l.idxOf y0.id)),
   ("C49", decide (L.consumed ++ pending m = L.events))]

/-! ### Random histories -/

def next (g : Nat) : Nat := (g * 6364136223846793005 + 1442695040888963407) % 2 ^ 64
/-- A number below `n` and the next generator state. -/
def draw (g n : Nat) : Nat × Nat := let g := next g; ((g / 2 ^ 33) % n, g)
def pick {α : Type} [Inhabited α] (g : Nat) (l : List α) : α × Nat := let (i, g) := draw g l.length; (l[i]!, g)

def genConfig (g : Nat) : Config × Nat :=
  let (mb, g) := pick g [1, 1, 2, 3]
  let (tick, g) := pick g [1, 2 ^ 30, 2 ^ 31, 2 ^ 32]
  let (cb, g) := pick g [1, 2, 3, 4, 6]
  let (ca, g) := pick g [1, 2, 3, 4, 6]
  let (ce, g) := pick g [1, 2, 3, 5, 8, 40, 40, 40]
  ({ minBase := mb, tick := tick, capBids := cb, capAsks := ca, capEvents := ce }, g)

instance : Inhabited Side := ⟨.bid⟩
instance : Inhabited SelfTradeBehavior := ⟨.decrementTake⟩

def genOrder (c : Config) (g : Nat) : P × Nat :=
  let (kind, g) := draw g 14
  let (k, g) := draw g 8
  let (limit, g) := if kind = 0 then pick g [0, 1, 2 ^ 64 - 1, 2 ^ 32 + 1, 2 ^ 29, c.tick, c.tick * ((2 ^ 64 - 1) / c.tick)] else ((2 ^ 31) * (k + 1), g)
  let (q, g) := draw g 9
  let (kind, g) := draw g 12
  let (base, g) := if kind = 0 then pick g [0, 2 ^ 64 - 1, 1] else (q + 1, g)
  let (r, g) := draw g 30
  let (kind, g) := draw g 3
  let (quote, g) := if kind = 0 then (r, g) else if kind = 1 then (1000, g) else pick g [2 ^ 64 - 1, 0, 2 ^ 64 - 1, 1000]
  let (side, g) := pick g [Side.bid, .ask]
  let (ml, g) := pick g [0, 1, 2, 3, 10, 10, 10]
  let (user, g) := draw g 4
  let (tag, g) := draw g 100
  let (po, g) := pick g [true, false, false, false]
  let (pa, g) := pick g [true, true, true, false]
  let (st, g) := pick g [SelfTradeBehavior.decrementTake, .cancelProvide, .abortTransaction]
  ({ maxBaseQty := base, maxQuoteQty := quote, limitPrice := limit, side := side, matchLimit := ml, callbackInfo := ⟨user, tag⟩,
     postOnly := po, postAllowed := pa, selfTradeBehavior := st }, g)

def genInstr (c : Config) (m : M) (L : Log DemoCb) (g : Nat) : Instr DemoCb × Nat :=
  let (k, g) := draw g 12
  let ids := (allResting m).map Order.id ++ L.posted.map Order.id
  if k < 8 then let (p, g) := genOrder c g; (.newOrder p, g)
  else if k = 8 then let (i, g) := draw g (ids.length + 1); (.cancelOrder (ids.getD i 77), g)
  else if k = 9 then
    let (i, g) := draw g (ids.length + 1); let (j, g) := draw g (ids.length + 1)
    (.massCancelOrders ((ids.drop i).take (j % 3)), g)
  else let (n, g) := draw g 5; (.consumeEvents n, g)

structure Rep where
  bad : List (String × String) := []
  steps : Nat := 0
  posted : Nat := 0
  fills : Nat := 0

def Rep.add (r : Rep) (g : String) (l : List (String × Bool)) : Rep :=
  l.foldl (fun r x => if x.2 || r.bad.any (fun y => y.1 == x.1) then r else { r with bad := r.bad ++ [(x.1, g)] }) r

partial def go (c : Config) (m : M) (a : RefMarket DemoCb) (L : Log DemoCb) (v : Vault) (n : Nat) (g : Nat) (r : Rep) : Nat → Rep × Nat
  | 0 => (r, g)
  | k + 1 =>
    let w := toString n
    let (i, g) := genInstr c m L g
    let r := match i with | .newOrder p => r.add w (tried c m p) | .massCancelOrders ids => r.add w (mass m ids) | _ => r
    let am := m.exec i
    let ra := a.exec i
    let r := r.add w [("C62_answer", match ra, am with
      | .ok (s, a'), .ok (s', m') => decide (s = s') && shows m' a'
      | .error e, .error e' => decide (e = e') || (decide (e = .ao .orderNotFound) && decide (e' = .panic))
      | _, _ => false)]
    let L := L.append (stepLog m i)
    let v' := settle m v i
    let r := r.add w [("C68_step", decide (v'.base - owedBase (m.step i) = v.base - owedBase m) &&
        decide (v.quote - owedQuote m ≤ v'.quote - owedQuote (m.step i))),
      ("C68_custody", decide (v'.base = owedBase (m.step i)) && decide (owedQuote (m.step i) ≤ v'.quote) &&
        decide (v'.quote ≤ owedQuote (m.step i) + roundings L))]
    let m := m.step i
    let v := v'
    let a := a.step i
    let r := r.add w (("C62_state", shows m a) :: state c m n ++ hist m L)
    let r := { r with steps := r.steps + 1, posted := L.posted.length + r.posted, fills := r.fills + (fills (pending m)).length }
    -- a history that the reading code cannot read any more is given up
    if (m.orders .bid).toOption.isSome && (m.orders .ask).toOption.isSome && m.events.toOption.isSome then go c m a L v (n + 1) g r k else (r, g)

/-! ### Slab and queue -/

def genSOp (g : Nat) : SOp Nat × Nat :=
  let (kind, g) := draw g 10
  let (k, g) := draw g 12
  let (big, g) := pick g [0, 0, 0, 2 ^ 127, 2 ^ 64, 2 ^ 128 - 100]
  let (q, g) := draw g 20
  let (c, g) := draw g 100
  let k := k + big
  (if kind < 6 then .insert k q c else if kind < 7 then .update k q else .remove k, g)

def isPerm {α : Type} [BEq α] (a b : List α) : Bool := a.length == b.length && a.all (fun x => a.count x == b.count x)

def slabChecks (cap : Nat) (ops : List (SOp Nat)) : List (String × Bool) :=
  let r := (Slab.zeroed cap 0).applyAll ops
  let s := r.2; let bag := bagOf cap ops
  let ids := bag.map Order.id
  [("C29_contents", match s.orders with
      | .error _ => false
      | .ok os => isPerm (os.map fun o => (o.id, o.qty, o.cb)) (bag.map fun o => (o.id, o.qty, o.cb)) &&
          (pairs os).all (fun (a, b) => decide (a.id < b.id)) && decide (s.header.leafCount = bag.length)),
   ("C29_answers", decide (r.1.length = (answersOf cap ops).length) && (r.1.zip (answersOf cap ops)).all fun (x, y) =>
      decide (x = y) || (decide (x = .panicked) && decide (y = .removed none))),
   ("C29_lookup", (ids ++ (List.range 13) ++ [2 ^ 127 + 1, 2 ^ 64 + 2]).all fun k => match bag.find? (fun (o : Order Nat) => o.id == k), s.findByKey k with
      | some o, .ok (some i) => decide (s.leafNodes[i]? = some (⟨k, o.qty⟩ : LeafNode)) && decide (s.callbackInfos[i]? = some o.cb)
      | none, .ok none => true
      | _, _ => false),
   ("C30_min", match s.findMin with
      | .ok none => bag.isEmpty
      | .ok (some i) => bag.any fun o => bag.all (fun x => decide (o.id ≤ x.id)) && decide (s.leafNodes[i]? = some ⟨o.id, o.qty⟩) && decide (s.callbackInfos[i]? = some o.cb)
      | .error _ => false),
   ("C30_max", match s.findMax with
      | .ok none => bag.isEmpty
      | .ok (some i) => bag.any fun o => bag.all (fun x => decide (x.id ≤ o.id)) && decide (s.leafNodes[i]? = some ⟨o.id, o.qty⟩) && decide (s.callbackInfos[i]? = some o.cb)
      | .error _ => false),
   ("C31", [true, false].all fun asc => match s.iterAll asc with
      | .error _ => false
      | .ok ls => isPerm (ls.map fun n => (n.orderId, n.baseQuantity)) (bag.map fun o => (o.id, o.qty)) &&
          (pairs ls).all fun (a, b) => if asc then decide (a.orderId < b.orderId) else decide (b.orderId < a.orderId)),
   ("C32_capacity", ([3, 2 ^ 127 + 50, 2 ^ 100].filter (fun k => decide (k ∉ ids))).all fun k =>
      if bag.length < cap + 1 then (match s.put k 1 1 with | .ok (none, _) => true | _ => false)
      else (match s.put k 1 1 with | .error (.ao .slabOutOfSpace) => true | _ => false)),
   ("C33_depth", match s.getDepth with | .ok d => decide (d ≤ 129) && decide (d ≤ bag.length) | .error _ => false),
   ("C33_walks", bag.isEmpty || ([true, false].all (fun b => (s.findMinMaxWalk b 129 s.header.rootNode).toOption.isSome) &&
      (ids ++ [5, 2 ^ 127 + 3]).all fun k => (s.insertWalk k 129 s.header.rootNode none).toOption.isSome && (s.findByKeyWalk k 129 s.header.rootNode).toOption.isSome)),
   ("C20_no_write", ([5, 2 ^ 127 + 3, 2 ^ 90].filter (fun k => decide (k ∉ ids))).all fun k => match s.removeByKey k with
      | .ok (none, s') => decide (s'.leafNodes = s.leafNodes) && decide (s'.innerNodes = s.innerNodes) && decide (s'.header = s.header)
      | _ => true)]

def genQOp (g : Nat) : QOp Nat × Nat :=
  let (kind, g) := draw g 8
  let (a, g) := draw g 1000
  let (b, g) := draw g 1000
  let (c, g) := draw g 250
  let (n, g) := draw g 5
  (if kind < 2 then .fill ⟨c, a % 2, List.replicate 6 (UInt8.ofNat b), a, b, c⟩ a b
   else if kind < 5 then .out ⟨c, b % 2, List.replicate 14 (UInt8.ofNat a), b, a⟩ c else .pop n, g)

def queueChecks (cap : Nat) (ops : List (QOp Nat)) : List (String × Bool) :=
  match (EventQueue.zeroed cap 0).applyAll ops with
  | .error _ => [("C25", false)]
  | .ok q =>
    let l := ops.foldl (fifo cap) []
    [("C25", decide (q.iter = .ok l)),
     ("C27", match q.iter with | .error _ => false | .ok l => decide (l.length = q.len) && (q.isEmpty == l.isEmpty) &&
        (List.range (l.length + 2)).all fun i => decide (q.peekAt i = .ok l[i]?)),
     ("C28", if q.len = cap then (match q.pushBack (.out ⟨1, 0, List.replicate 14 0, 5, 6⟩) (some 3) none with | .ok (.refused _) => true | _ => false)
        else match q.iter, q.pushBack (.out ⟨9, 0, List.replicate 14 0, 5, 6⟩) (some 3) none, q.pushBack (.fill ⟨9, 1, List.replicate 6 0, 7, 8, 9⟩) (some 3) (some 4) with
          | .ok l, .ok (.pushed q'), .ok (.pushed q2) => decide (q'.iter = .ok (l ++ [.out ⟨1, 0, List.replicate 14 0, 5, 6⟩ 3])) &&
              decide (q2.iter = .ok (l ++ [.fill ⟨0, 1, List.replicate 6 0, 7, 8, 9⟩ 3 4]))
          | _, _, _ => false),
     ("C26_pop", [0, 1, 2, 7].all fun n => match q.popN n, q.iter with
        | .ok q', .ok l => decide (q'.iter = .ok (l.drop n)) && decide (q'.len = q.len - min n q.len) && decide (q'.header.seqNum = q.header.seqNum)
        | _, _ => false),
     ("C11_gen", [Side.bid, .ask].all fun side => [0, 5, 2 ^ 64 - 1].all fun pr => match q.genOrderId pr side with
        | .ok (id, q') => decide (id / 2 ^ 64 = pr) && decide (priceFromKey id = pr) && getSideFromOrderId id == side && decide (q'.header.seqNum = q.header.seqNum + 1)
        | .error _ => false)]

def genList {α : Type} (f : Nat → α × Nat) : Nat → Nat → List α × Nat
  | 0, g => ([], g)
  | n + 1, g => let (x, g) := f g; let (l, g) := genList f n g; (x :: l, g)

def main (runs len seed : Nat) : IO Unit := do
  let mut r : Rep := {}
  let mut g := seed
  for _ in [0:runs] do
    let (c, g1) := genConfig g
    let (r1, g2) := go c (c.market ⟨0, 0⟩) c.reference {} {} 0 g1 r len
    r := r1; g := g2
  for _ in [0:runs] do
    let (cap, g1) := draw g 7
    let (n, g1) := draw g1 30
    let (ops, g2) := genList genSOp n g1
    r := r.add "slab" (slabChecks cap ops)
    let (cap, g1) := draw g2 6
    let (n, g1) := draw g1 25
    let (ops, g2) := genList genQOp n g1
    r := r.add "queue" (queueChecks (cap + 1) ops)
    g := g2
  IO.println s!"STEPS {r.steps} POSTED {r.posted} FILLS {r.fills}"
  IO.println s!"VIOLATED {" ".intercalate (r.bad.map (·.1))}"

end Mon
#eval Mon.main 150 25 20240
