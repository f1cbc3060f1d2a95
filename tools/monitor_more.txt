/-
Executable copies of further theorems about the market (C11, C13, C19, C64 to C72, C82 to C109): comparisons of two
executions, sums over histories, lives of orders. Appended to tools/monitor.txt by tools/mutate.py.
-/
open AOB
namespace Mon

def others (p : P) (l : List O) : Bool := decide (p.selfTradeBehavior = .decrementTake) ||
  l.all fun o => decide (p.callbackInfo.user ≠ o.cb.user)
def sameShow (a b : M) : Bool := same a b && decide (a.queue.header.seqNum = b.queue.header.seqNum)
def sameTrading (a b : M) : Bool := decide (resting a .bid = resting b .bid) && decide (resting a .ask = resting b .ask) &&
  decide (a.queue.header.seqNum = b.queue.header.seqNum)
def prices (m : M) : List Nat := (allResting m).map Order.price ++ [0, 1, 2 ^ 64 - 1]
def deeper (s : Side) (a b : M) : Bool := (prices a ++ prices b).all fun l => decide (depthAt a s l ≤ depthAt b s l)
/-- The conditions of C87. -/
def ample (m : M) (p : P) : Bool :=
  !p.postOnly && others p (acceptable m p) && (decide (p.side = .bid) || decide (2 ^ 32 ≤ p.limitPrice)) &&
  decide ((greedy p.maxBaseQty (acceptable m p)).length ≤ p.matchLimit) &&
  decide (costOf (greedy p.maxBaseQty (acceptable m p)) ≤ p.maxQuoteQty)
def noBetter (s : Side) (old new : Option Nat) : Bool := match new with
  | none => true
  | some q => match old with | none => false | some r => !worse s r q
def noWorse (s : Side) (old new : Option Nat) : Bool := match old with
  | none => true
  | some r => match new with | none => false | some q => !worse s q r
/-- The same failure, as in C64. -/
def likeErr (e f : Err) : Bool := decide (e = f) || (decide (e = .ao .orderNotFound) && decide (f = .panic)) ||
  (decide (e = .panic) && decide (f = .ao .orderNotFound))
/-- A list that allocates `n` to the orders, in the sequence of the list. -/
def alloc (n : Nat) (l : List O) : O → Nat := fun o => ((greedy n l).find? (fun x => x.1.id == o.id)).elim 0 (·.2)

/-- Comparison of `p` on `m₁` and on a market `m₂` that is at least as deep (C98). -/
def deepPair (tag : String) (m₁ m₂ : M) (p : P) : List (String × Bool) :=
  match m₁.newOrder p, m₂.newOrder p with
  | .ok (_, n₁), .ok (_, n₂) =>
    let f₁ := fills (emitted m₁ n₁); let f₂ := fills (emitted m₂ n₂)
    let o := p.side.opposite
    let b₁ := bill (resting m₁ o) (traded (emitted m₁ n₁)); let b₂ := bill (resting m₂ o) (traded (emitted m₂ n₂))
    [(tag ++ "_more_base", ample m₂ p ==> decide (sumBase f₁ ≤ sumBase f₂)),
     (tag ++ "_buyer", (decide (p.side = .bid) && others p (acceptable m₂ p) && decide (sumBase f₂ ≤ sumBase f₁)) ==>
        (decide (b₂ ≤ b₁) && decide (sumQuote f₂ * 2 ^ 32 ≤ sumQuote f₁ * 2 ^ 32 + f₂.length * (2 ^ 32 - 1)))),
     (tag ++ "_seller", (decide (p.side = .ask) && others p (acceptable m₂ p) && decide (sumBase f₁ ≤ sumBase f₂) &&
        (resting m₂ .bid).all (fun o => decide (p.maxBaseQty * o.price ≤ p.maxQuoteQty * 2 ^ 32))) ==>
        (decide (b₁ ≤ b₂) && decide (sumQuote f₁ * 2 ^ 32 ≤ sumQuote f₂ * 2 ^ 32 + f₂.length * (2 ^ 32 - 1))))]
  | _, _ => []

def placedMore (c : Config) (m : M) (p : P) (s : OrderSummary) (m' : M) : List (String × Bool) :=
  let em := emitted m m'
  let o := p.side.opposite
  let opp := resting m o; let own := resting m p.side
  let fs := fills em
  let posts := p.postAllowed && decide (rounds p em < p.matchLimit) &&
    (resting m' o).all (fun x => !acc p.side p.limitPrice x.price) && decide (c.minBase ≤ remainder p em)
  let b := bill opp (traded em)
  let cover := (resting m .bid).all (fun o => decide (p.maxBaseQty * o.price ≤ p.maxQuoteQty * 2 ^ 32))
  let strangers := opp.filter (fun x => decide (p.selfTradeBehavior = .decrementTake) || decide (p.callbackInfo.user ≠ x.cb.user))
  [("C13_events", decide (em.length ≤ 2 * p.matchLimit)),
   ("C11_next_id", (match s.postedOrderId with
      | none => true
      | some id => decide (id = p.limitPrice * 2 ^ 64 + (match p.side with
          | .bid => 2 ^ 64 - 1 - m.queue.header.seqNum | .ask => m.queue.header.seqNum))) &&
      decide (m'.queue.header.seqNum = m.queue.header.seqNum + if posts then 1 else 0)),
   ("C65_whole_gives_the_parts", (List.range (p.matchLimit + 1)).all fun n1 =>
      let n2 := p.matchLimit - n1
      (decide (0 < n2) || !p.postAllowed) ==> match m.newOrder (p.first n1) with
        | .error _ => false
        | .ok (s1, m1) => match m1.newOrder (p.second n2 s1) with
          | .error _ => false
          | .ok (s2, m2) => decide (s = s1.plus s2) && sameShow m' m2),
   ("C65_limit_prefix", !p.postAllowed ==> (List.range (p.matchLimit + 1)).all fun n => match m.newOrder { p with matchLimit := n } with
      | .error _ => false
      | .ok (_, m1) => decide (emitted m m1 <+: em)),
   ("C67", match s.postedOrderId with
      | none => true
      | some id => match m'.cancelOrder id with
        | .error _ => false
        | .ok (s', m'') => decide (s' = ⟨none, s.totalBaseQtyPosted, s.totalBaseQtyPosted * p.limitPrice / 2 ^ 32, 0⟩) &&
            decide (resting m'' p.side = own.take (c.cap p.side - 1)) && decide (resting m'' o = resting m' o) &&
            decide (pending m'' = pending m')),
   ("C71_looser_limit", [1, 2, 5].all fun k => let l := match p.side with | .bid => p.limitPrice + k * 2 ^ 32 | .ask => p.limitPrice - k * 2 ^ 32
      decide (l < 2 ^ 64) ==> match m.newOrder { p with limitPrice := l } with
        | .error _ => true
        | .ok (_, m2) => decide (fs <+: fills (emitted m m2))),
   ("C71_more_base", [1, 2, 5].all fun k => decide (p.maxBaseQty + k < 2 ^ 64) ==> match m.newOrder { p with maxBaseQty := p.maxBaseQty + k } with
        | .error _ => true
        | .ok (_, m2) => decide (sumBase fs ≤ sumBase (fills (emitted m m2))) && decide (sumQuote fs ≤ sumQuote (fills (emitted m m2)))),
   ("C71_more_quote", decide (p.side = .bid) ==> [1, 2, 5].all fun k => decide (p.maxQuoteQty + k < 2 ^ 64) ==> match m.newOrder { p with maxQuoteQty := p.maxQuoteQty + k } with
        | .error _ => true
        | .ok (_, m2) => decide (sumBase fs ≤ sumBase (fills (emitted m m2))) && decide (sumQuote fs ≤ sumQuote (fills (emitted m m2)))),
   ("C72", opp.getLast?.all fun w => match m.cancelOrder w.id with
      | .error _ => true
      | .ok (_, m2) => match m2.newOrder p with
        | .error _ => true
        | .ok (_, m2') => let ids := opp.dropLast.map Order.id; decide (about ids em = about ids (emitted m2 m2'))),
   ("C82_cancel_and_order", [Side.bid, .ask].all fun side => (resting m side).all fun x =>
      (em.all (fun e => e.id != x.id) &&
        (decide ((resting m' o).head? = some x) ==> (!acc p.side p.limitPrice x.price || (decide (s.totalBaseQty = p.maxBaseQty) && s.postedOrderId.isNone))) &&
        (decide (side = o) || decide (own.length < c.cap p.side) || !p.postAllowed)) ==>
      match m.cancelOrder x.id, m'.cancelOrder x.id with
      | .ok (sc, mc), .ok (sc', m2) => decide (sc = sc') && (match mc.newOrder p with
          | .ok (s1, m1) => decide (s1 = s) && sameShow m1 m2 && decide (emitted mc m1 = em)
          | .error _ => false)
      | _, _ => false),
   ("C82_consume_and_order", (List.range ((pending m).length + 1)).all fun n => match m.consumeEvents n, m'.consumeEvents n with
      | .ok mn, .ok m2 => (match mn.newOrder p with
          | .ok (s1, m1) => decide (s1 = s) && sameShow m1 m2 && decide (emitted mn m1 = em)
          | .error _ => false)
      | _, _ => false),
   ("C85_fills_allocate", opp.all (fun x => decide (traded em x ≤ x.qty) && ((!decide (x ∈ strangers)) ==> decide (traded em x = 0))) &&
      decide (amount opp (traded em) = sumBase fs)),
   ("C85_rounding", match p.side with
      | .bid => decide (b ≤ sumQuote fs * 2 ^ 32) && decide (sumQuote fs * 2 ^ 32 ≤ b + fs.length * (2 ^ 32 - 1))
      | .ask => decide (sumQuote fs * 2 ^ 32 ≤ b) && decide (b ≤ sumQuote fs * 2 ^ 32 + fs.length * (2 ^ 32 - 1))),
   ("C85_buyer", decide (p.side = .bid) ==> [strangers, strangers.reverse, strangers.drop 1].all fun l =>
      let f := alloc (sumBase fs) l
      decide (sumBase fs ≤ amount opp f) ==> (decide (b ≤ bill opp f) && decide (sumQuote fs * 2 ^ 32 ≤ bill opp f + fs.length * (2 ^ 32 - 1)))),
   ("C85_seller", (decide (p.side = .ask) && cover) ==> [strangers, strangers.reverse, strangers.drop 1].all fun l =>
      let f := alloc (sumBase fs) l
      decide (sumBase fs = amount opp f) ==> (decide (bill opp f ≤ b) && decide (bill opp f ≤ sumQuote fs * 2 ^ 32 + fs.length * (2 ^ 32 - 1)))),
   ("C87_fills", ample m p ==> decide (fs.map (fun e => (e.id, e.base, e.quote)) =
      (greedy p.maxBaseQty (acceptable m p)).map (fun x => (x.1.id, x.2, val p.side x.2 x.1.price)))),
   ("C87_total", ample m p ==> decide (sumBase fs = min p.maxBaseQty (depthFor m p))),
   ("C89_opposite", noBetter o (bestPrice m o) (bestPrice m' o)),
   ("C89_own", noWorse p.side (bestPrice m p.side) (bestPrice m' p.side) && (decide (bestPrice m' p.side = bestPrice m p.side) ||
      (s.postedOrderId.isSome && decide (bestPrice m' p.side = some p.limitPrice) && (bestPrice m p.side).all fun r => worse p.side r p.limitPrice))),
   ("C91", decide (p.selfTradeBehavior = .cancelProvide) ==>
      (let mine := ownMet m m' p
       decide (mine.length ≤ p.matchLimit) && [SelfTradeBehavior.decrementTake, .cancelProvide, .abortTransaction].all fun sb =>
        match (m.run (mine.map (fun x => .cancelOrder x.id))).newOrder { p with matchLimit := p.matchLimit - mine.length, selfTradeBehavior := sb } with
        | .error _ => false
        | .ok (s2, m2) => decide (s2 = s) && sameTrading m2 m' &&
            decide (emitted (m.run (mine.map (fun x => .cancelOrder x.id))) m2 = em.filter (fun e => mine.all (fun x => x.id != e.id))))),
   ("C96_one_order", decide (fs.length ≤ (outsFrom o em).length + p.side.spare)),
   ("C96_same_order", opp.all fun x => decide ((fillsOf x.id em).length ≤ (match p.side with | .bid => 1 | .ask => 2))),
   ("C99_share", ample m p ==> opp.all fun x => acc p.side p.limitPrice x.price ==>
      decide (traded em x = min x.qty (p.maxBaseQty - sumQty (before m o x.id)))),
   ("C99_block", ample m p ==> (splits opp).all fun (a, r) => (splits r).all fun (bl, _) => bl.all (fun x => acc p.side p.limitPrice x.price) ==>
      decide ((bl.map (traded em)).sum = min (sumQty bl) (p.maxBaseQty - sumQty a)))] ++
  opp.flatMap fun x => match m.cancelOrder x.id with
    | .ok (_, mc) => ("C98_cancel", deeper .bid mc m && deeper .ask mc m) :: deepPair "C98" mc m p
    | .error _ => []

/-- Statements about an order, a second order, and a third. -/
def together (c : Config) (m : M) (p q r : P) : List (String × Bool) :=
  let take (x : P) : P := { x with postAllowed := false }
  let along (x : P) : P := { x with side := p.side }
  let js : List (Instr DemoCb) := [.newOrder (along q), .consumeEvents 2, .newOrder (along r)]
  let own : List (Instr DemoCb) := [.newOrder { along q with callbackInfo := p.callbackInfo }, .newOrder { along r with callbackInfo := p.callbackInfo }]
  let any3 : List (Instr DemoCb) := [.newOrder p, .newOrder q, .newOrder r]
  let takes : List (Instr DemoCb) := [.newOrder (take p), .newOrder (take q), .newOrder (take { p with side := p.side.opposite, maxBaseQty := p.maxBaseQty + q.maxBaseQty }), .newOrder (take r)]
  let tev := (runLog m takes).events
  let mids := (prices m).filter fun x => (resting m .bid).all (fun b => decide (b.price ≤ x)) && (resting m .ask).all fun b => decide (x ≤ b.price)
  let after := m.run any3
  let pq := { take q with side := p.side.opposite }
  let pp := take p
  let opp := resting m p.side.opposite
  [("C19_full", match m.newOrder p with | .error (.ao .eventQueueFull) => decide (c.capEvents < (pending m).length + 2 * p.matchLimit) | _ => true),
   ("C69_best_can_be_taken", opp.head?.all fun o =>
      let p := { p with postOnly := false, postAllowed := false, matchLimit := 1, maxBaseQty := o.qty + q.maxBaseQty % 3,
                        maxQuoteQty := (o.qty * o.price + (2 ^ 32 - 1)) / 2 ^ 32 + r.maxBaseQty % 2, limitPrice := o.price }
      (others p [o] && decide ((pending m).length + 2 ≤ c.capEvents) && decide (val p.side o.qty o.price ≠ 0) &&
        decide (p.maxBaseQty < 2 ^ 64) && decide (p.maxQuoteQty < 2 ^ 64)) ==>
      match m.newOrder p with
        | .error _ => false
        | .ok (s, m') => decide (s = ⟨none, o.qty, val p.side o.qty o.price, 0⟩) && decide (resting m' p.side.opposite = opp.drop 1) &&
            decide (resting m' p.side = resting m p.side) && decide (emitted m m' = [.fill p.side o.id o.qty (val p.side o.qty o.price) o.cb p.callbackInfo,
              .out p.side.opposite o.id 0 o.cb])),
   ("C69_worthless_bid_blocks", (resting m .bid).head?.all fun o =>
      (decide (o.qty * o.price / 2 ^ 32 = 0)) ==> [p, q, r].all fun p => (decide (p.side = .ask) && decide (p.limitPrice % c.tick = 0) && (!p.postAllowed || decide (c.tick ≤ p.limitPrice)) &&
        decide (p.limitPrice ≤ o.price)) ==> match m.newOrder p with
        | .error _ => false
        | .ok (s, m') => decide (s = ⟨none, 0, 0, 0⟩) && sameShow m m'),
   ("C69_never_blocked", decide (2 ^ 32 ≤ c.minBase * c.tick) ==> (allResting m).all fun o => [Side.bid, .ask].all fun t => decide (val t o.qty o.price ≠ 0)),
   ("C70_no_gain_at", mids.all fun x => decide (2 ^ 32 * takenQuote .ask tev + x * takenBase .bid tev ≤ 2 ^ 32 * takenQuote .bid tev + x * takenBase .ask tev)),
   ("C70_no_gain", decide (takenBase .ask tev ≤ takenBase .bid tev) ==> decide (takenQuote .ask tev ≤ takenQuote .bid tev)),
   ("C82_cancel_and_cancel", (pairs (allResting m)).all fun (x, y) => match m.cancelOrder x.id, m.cancelOrder y.id with
      | .ok (s1, mx), .ok (s2, my) => (match mx.cancelOrder y.id, my.cancelOrder x.id with
          | .ok (s2', m1), .ok (s1', m2) => decide (s1 = s1') && decide (s2 = s2') && sameShow m1 m2
          | _, _ => false)
      | _, _ => false),
   ("C82_cancel_and_consume", (allResting m).all fun x => [1, 3].all fun n => match m.cancelOrder x.id, m.consumeEvents n with
      | .ok (s1, mc), .ok mn => (match mc.consumeEvents n, mn.cancelOrder x.id with
          | .ok m1, .ok (s1', m2) => decide (s1 = s1') && sameShow m1 m2
          | _, _ => false)
      | _, _ => false),
   ("C88_overtaking", [Side.bid, .ask].all fun side => (resting m side).all fun x => (resting after side).any (fun y => y.id == x.id) ==>
      (before after side x.id).all fun z => (before m side x.id).any (fun y => y.id == z.id && decide (y.cb = z.cb) && decide (z.qty ≤ y.qty)) || worse side x.price z.price),
   ("C88_place", [Side.bid, .ask].all fun side => (resting m side).all fun x => (resting after side).all fun y => (y.id == x.id) ==>
      (List.isSublist ((ahead after side x.id).map Order.id) ((ahead m side x.id).map Order.id) &&
        decide (sumQty (ahead after side x.id) ≤ sumQty (ahead m side x.id)) && decide (y.qty ≤ x.qty) && decide (y.cb = x.cb))),
   ("C110_keeps_its_slot", [Side.bid, .ask].all fun side => (resting m side).all fun x => (resting after side).all fun y => (y.id == x.id) ==>
      match (m.book.getTree side).findByKey x.id, (after.book.getTree side).findByKey x.id with
      | .ok (some k), .ok (some k') => k == k' && (after.book.getTree side).leafNodes[k]? == some ⟨x.id, y.qty⟩ &&
          decide ((after.book.getTree side).callbackInfos[k]? = some x.cb)
      | _, _ => false),
   ("C110_once", [Side.bid, .ask].all fun side => let s := m.book.getTree side
      decide ((s.leafNodes.take s.header.leafBumpIndex).map LeafNode.key).Nodup),
   ("C89_run", [Side.bid, .ask].all fun side => (bestPrice after side).all fun b => noBetter side (bestPrice m side) (some b) ||
      (runLog m any3).posted.any fun o => decide (o.price = b) && getSideFromOrderId o.id == side),
   ("C99_waiting", (resting m p.side.opposite).all fun x => (resting after p.side.opposite).all fun y => (y.id == x.id && acc p.side p.limitPrice x.price &&
        ample m p && ample after p && (resting after p.side.opposite).all fun z => !worse p.side.opposite x.price z.price) ==>
      match m.newOrder p, after.newOrder p with
      | .ok (_, m1), .ok (_, m2) => decide (min y.qty (traded (emitted m m1) x) ≤ traded (emitted after m2) y)
      | _, _ => true),
   ("C103_less_is_left", deeper p.side (m.run js) m),
   ("C104", match m.newOrder pp with
      | .error _ => true
      | .ok (s, m1) => match m1.newOrder pq with
        | .error _ => true
        | .ok (t, m2) => match m.newOrder pq with
          | .error _ => false
          | .ok (t', n1) => match n1.newOrder pp with
            | .error _ => false
            | .ok (s', n2) => decide (s = s') && decide (t = t') && decide (emitted m n1 = emitted m1 m2) && decide (emitted n1 n2 = emitted m m1) &&
                sameTrading m2 n2 && decide (pending m2 = pending m ++ (emitted m m1 ++ emitted m1 m2))),
   ("C105_when", let ps := [p, q, r]
      let posts := (ps.foldl (fun (x : Option M) p => x.bind fun m => match m.newOrder p with
        | .ok (s, m') => if s.postedOrderId.isSome && (emitted m m').isEmpty then some m' else none
        | .error _ => none) (some m)).isSome
      posts == (ps.all (fun p => p.postAllowed && decide (p.limitPrice % c.tick = 0) && decide (c.tick ≤ p.limitPrice) && decide (0 < p.matchLimit) && decide (c.minBase ≤ p.face.2.1)) &&
        ps.all (fun p => (resting m p.side.opposite).all fun o => !acc p.side p.limitPrice o.price) &&
        ps.all (fun p => ps.all fun q => decide (q.side = p.side.opposite) ==> !acc p.side p.limitPrice q.limitPrice) &&
        [Side.bid, .ask].all fun side => decide ((resting m side).length + ps.countP (fun p => p.side == side) ≤ c.cap side))),
   ("C105_levels", let ps := [p, q]
      match ps.foldl (fun (x : Option M) p => x.bind fun m => match m.newOrder p with
        | .ok (s, m') => if s.postedOrderId.isSome && (emitted m m').isEmpty then some m' else none
        | .error _ => none) (some m) with
      | none => true
      | some m' => [Side.bid, .ask].all fun side => (p.limitPrice :: prices m).all fun pr =>
          decide ((level (resting m' side) pr).map Order.face = (level (resting m side) pr).map Order.face ++ (newAt ps side pr).map NewOrderParams.face)),
   ("C106_backlog", decide ((pending after).length ≤ (pending m).length + 2 * p.matchLimit + 2 * q.matchLimit + 2 * r.matchLimit)),
   ("C107_taken", let es := (runLog m js).events; let o := p.side.opposite
      (resting m o).all (fun x => decide (traded es x ≤ x.qty)) && decide (amount (resting m o) (traded es) = sumBase (fills es)) &&
      (match p.side with
        | .bid => decide (bill (resting m o) (traded es) ≤ sumQuote (fills es) * 2 ^ 32) &&
            decide (sumQuote (fills es) * 2 ^ 32 ≤ bill (resting m o) (traded es) + (fills es).length * (2 ^ 32 - 1))
        | .ask => decide (sumQuote (fills es) * 2 ^ 32 ≤ bill (resting m o) (traded es)) &&
            decide (bill (resting m o) (traded es) ≤ sumQuote (fills es) * 2 ^ 32 + (fills es).length * (2 ^ 32 - 1)))),
   ("C107_buyer", match m.newOrder p with
      | .error _ => true
      | .ok (_, m') => let es := (runLog m own).events; let f := fills (emitted m m'); let b := bill (resting m .ask) (traded (emitted m m'))
        (decide (p.side = .bid) && decide (sumBase f ≤ sumBase (fills es)) && (decide (p.selfTradeBehavior = .decrementTake) ||
          (decide (q.selfTradeBehavior ≠ .decrementTake) && decide (r.selfTradeBehavior ≠ .decrementTake)))) ==>
        (decide (b ≤ bill (resting m .ask) (traded es)) && decide (sumQuote f * 2 ^ 32 ≤ sumQuote (fills es) * 2 ^ 32 + f.length * (2 ^ 32 - 1)))),
   ("C107_seller", match m.newOrder p with
      | .error _ => true
      | .ok (_, m') => let es := (runLog m own).events; let f := fills (emitted m m'); let b := bill (resting m .bid) (traded (emitted m m'))
        (decide (p.side = .ask) && decide (sumBase f = sumBase (fills es)) && (decide (p.selfTradeBehavior = .decrementTake) ||
          (decide (q.selfTradeBehavior ≠ .decrementTake) && decide (r.selfTradeBehavior ≠ .decrementTake))) &&
          (resting m .bid).all (fun o => decide (p.maxBaseQty * o.price ≤ p.maxQuoteQty * 2 ^ 32))) ==>
        (decide (bill (resting m .bid) (traded es) ≤ b) && decide (sumQuote (fills es) * 2 ^ 32 ≤ sumQuote f * 2 ^ 32 + f.length * (2 ^ 32 - 1))))] ++
  (match m.newOrder p with | .ok (s, m') => placedMore c m p s m' | .error _ => []) ++ deepPair "C103" (m.run js) m p

def lifeOf (m : M) (id : Nat) (l : List (Mark DemoCb)) : Bool :=
  let rests := (allResting m).filter (fun x => x.id == id)
  match l with
  | [] => rests.isEmpty
  | .posted o :: rest =>
    let side := sideOfId id
    let isF : Mark DemoCb → Bool := fun k => match k with | .event (.fill ..) => true | _ => false
    let fs := (rest.takeWhile isF).filterMap Mark.event?
    let left := o.qty - sumBase fs
    o.id == id && fs.all (fun f => match f with
      | .fill s i b q mk _ => decide (s = side.opposite) && decide (i = id) && decide (0 < b) && decide (0 < q) && decide (q = val s b (id / 2 ^ 64)) && decide (mk = o.cb)
      | _ => false) && decide (sumBase fs ≤ o.qty) &&
    (match rest.dropWhile isF with
      | [] => decide (rests = [⟨id, left, o.cb⟩])
      | [.event e] => decide (e = .out side id left o.cb) && rests.isEmpty
      | [.cancelled x] => decide (x = ⟨id, left, o.cb⟩) && rests.isEmpty
      | _ => false)
  | _ => false

def histMore (c : Config) (m : M) (is : List (Instr DemoCb)) (L : Log DemoCb) (st : List (Mark DemoCb)) (w : List Vault) : List (String × Bool) :=
  let gs : List (DemoCb → Bool) := [fun x => x.user == 1, fun x => decide (x.user < 2), fun _ => true]
  [("C96_history", decide ((L.events.filter Event.isOut).length + L.cancelled.length + (allResting m).length = L.posted.length) &&
      decide ((fills L.events).length ≤ (L.events.filter Event.isOut).length + 2 * newOrders is) && decide (L.posted.length ≤ newOrders is) &&
      decide (L.events.length ≤ 4 * newOrders is)),
   ("C97", (L.posted.map Order.id).all fun id =>
      let f := fillsOf id L.events; let q := sumQuote f * 2 ^ 32; let v := sumBase f * (id / 2 ^ 64)
      match sideOfId id with
      | .ask => decide (v ≤ q) && decide (q ≤ v + f.length * (2 ^ 32 - 1))
      | .bid => decide (q ≤ v) && decide (v ≤ q + f.length * (2 ^ 32 - 1))),
   ("C100", (gs.zip w).all fun (g, v) =>
      decide (v.base + outsideBase g m = (sumBase (buysOf g L.events) : Int) - sumBase (sellsOf g L.events)) &&
      decide (v.quote + outsideQuote g m ≤ (sumQuote (sellsOf g L.events) : Int) - sumQuote (buysOf g L.events)) &&
      decide ((sumQuote (sellsOf g L.events) : Int) - sumQuote (buysOf g L.events) ≤ v.quote + outsideQuote g m + roundingsOf g L)),
   ("C101", gs.all fun g => (2 ^ 31 * 3 :: prices m).all fun price =>
      (is.all fun i => match i with
        | .newOrder p => g p.callbackInfo ==> (match p.side with | .bid => decide (p.limitPrice ≤ price) | .ask => decide (price ≤ p.limitPrice))
        | _ => true) ==>
      (decide (sumQuote (buysOf g L.events) * 2 ^ 32 ≤ sumBase (buysOf g L.events) * price + (takenBy g (buysOf g L.events)).length * (2 ^ 32 - 1)) &&
       decide (sumBase (sellsOf g L.events) * price ≤ sumQuote (sellsOf g L.events) * 2 ^ 32 + (takenBy g (sellsOf g L.events)).length * (2 ^ 32 - 1)))),
   ("C109", (st.map Mark.id).eraseDups.all fun id => lifeOf m id (notesOf id st))] ++
  [("C80_config", decide (c.minBase = m.minBaseOrderSize))]

/-- Comparison of two histories after one more instruction (C64, C66, C94, C95): the second market is `f` of the first. -/
def pairState (name : String) (m n : M) (fo : O → O) (fe : E → E) (noq : Bool) (flip : Bool) (ev : Bool := true) : List (String × Bool) :=
  [(name, [Side.bid, .ask].all (fun s => decide (resting n (if flip then s.opposite else s) = (resting m s).map fo)) &&
    (!ev || decide ((if noq then (pending n).map Event.noQuote else pending n) = (pending m).map fe)) &&
    decide (n.queue.header.seqNum = m.queue.header.seqNum))]

def ok? (r : Except Err (Option OrderSummary × M)) : Bool := r.toOption.isSome

structure Two where
  /-- larger queue, cranked all the time; C64 and C90 -/
  big : M
  /-- other names; C66 -/
  named : M
  /-- quote in another unit; C94 -/
  unit : M
  /-- mirrored, in other lots; C95 -/
  mirror : M
  bigOk : Bool := true
  unitOk : Bool := true
  mirrorOk : Bool := true

def rename (x : DemoCb) : DemoCb := ⟨7 - x.user, x.tag + 1000⟩

def mir : Reprice := { flip := true, price := fun p => (20 * 2 ^ 32 - p), top := 10, top' := 20, lots := 3, size := 2 ^ 20 }

/-- The mirrored instruction, if it fits the conditions of C95. -/
def mirrorInstr (i : Instr DemoCb) : Option (Instr DemoCb × Instr DemoCb) := match i with
  | .newOrder p =>
    let big := 2 ^ 50
    let lp := Reprice.price mir p.limitPrice
    if decide (PriceIn 10 p.limitPrice) && decide (p.maxBaseQty ≤ 2 ^ 20) then
      some (.newOrder { p with maxQuoteQty := big }, .newOrder { p with side := p.side.opposite, limitPrice := lp, maxBaseQty := p.maxBaseQty * 3, maxQuoteQty := big })
    else none
  | .cancelOrder id => if decide (PriceIn 10 (id / 2 ^ 64)) then some (i, .cancelOrder (mir.id id)) else none
  | .massCancelOrders ids => if ids.all (fun id => decide (PriceIn 10 (id / 2 ^ 64))) then some (i, .massCancelOrders (ids.map mir.id)) else none
  | .consumeEvents n => some (i, .consumeEvents n)

partial def goMore (c : Config) (m : M) (t : Two) (plain : M) (is : List (Instr DemoCb)) (L : Log DemoCb) (st : List (Mark DemoCb)) (w : List Vault)
    (n : Nat) (g : Nat) (r : Rep) : Nat → Rep × Nat
  | 0 => (r, g)
  | k + 1 =>
    let wh := toString n
    let (i, g) := genInstr c m L g
    let (q, g) := genOrder c g
    let (q', g) := genOrder c g
    let r := match i with | .newOrder p => r.add wh (together c m p q q') | _ => r
    -- C89_others
    let r := match i with
      | .newOrder _ => r
      | _ => r.add wh [("C89_others", [Side.bid, .ask].all fun s => noBetter s (bestPrice m s) (bestPrice (m.step i) s))]
    -- C64, C90
    let am := m.exec i
    let (big', r) := match i with
      | .consumeEvents _ => (t.big, r)
      | _ =>
        let ab := t.big.exec i
        let r := if !t.bigOk then r else r.add wh [("C64_C90", match ab, am with
          | .ok (s, b'), .ok (s', m') => decide (s = s') && sameTrading b' m' && decide (emitted t.big b' = emitted m m') &&
              decide ((pending m).length + (emitted t.big b').length ≤ c.capEvents)
          | .ok (_, b'), .error e => decide (e = Err.ao .eventQueueFull) && decide (c.capEvents < (pending m).length + (emitted t.big b').length)
          | .error _, .ok _ => false
          | .error e, .error f => likeErr e f)]
        -- where only the small queue is full, the large one does not follow
        let full := match am with | .error (.ao .eventQueueFull) => true | _ => false
        ((if full then t.big else (t.big.step i).step (.consumeEvents 1000)), r)
    -- C66
    let named' := t.named.step (i.rename rename)
    let r := r.add wh [("C66_same_answer", match am, t.named.exec (i.rename rename) with
      | .ok (s, _), .ok (s', _) => decide (s = s')
      | .error e, .error f => likeErr e f
      | _, _ => false)]
    -- C94 (whole prices only)
    let whole := match i with
      | .newOrder p => (!p.postAllowed || decide (p.limitPrice % 2 ^ 32 = 0)) && decide (p.limitPrice * 5 < 2 ^ 64) && decide (p.maxQuoteQty * 5 < 2 ^ 64)
      | _ => true
    let (unit', r, uok) := if t.unitOk && whole then
        (t.unit.step (i.times 5), r.add wh [("C94_same_answer", match am, t.unit.exec (i.times 5) with
          | .ok (s, _), .ok (s', _) => decide (s' = s.map (OrderSummary.times 5))
          | .error _, .error _ => true
          | _, _ => false)], true)
      else (t.unit, r, false)
    -- C95, on a history of its own
    let (plain', mirror', r) := match mirrorInstr i with
      | none => (plain, t.mirror, r)
      | some (a, b) => (plain.step a, t.mirror.step b, r.add wh [("C95_same_answer", match plain.exec a, t.mirror.exec b with
          | .ok (none, _), .ok (none, _) => true
          | .ok (some s, _), .ok (some s', _) => decide (s'.postedOrderId = s.postedOrderId.map mir.id) && decide (s'.totalBaseQty = s.totalBaseQty * 3) &&
              decide (s'.totalBaseQtyPosted = s.totalBaseQtyPosted * 3)
          | .error e, .error f => likeErr e f
          | _, _ => false)])
    let t := { t with big := big', named := named', unit := unit', mirror := mirror', unitOk := uok }
    let L := L.append (stepLog m i)
    let st := st ++ (stepLog m i).marks
    let gs : List (DemoCb → Bool) := [fun x => x.user == 1, fun x => decide (x.user < 2), fun _ => true]
    let w := (gs.zip w).map fun (g, v) => settleFor g m v i
    let m := m.step i
    let is := is ++ [i]
    let r := r.add wh (histMore c m is L st w ++ pairState "C66" m t.named (Order.rename rename) (Event.rename rename) false false ++
      pairState "C64" m t.big id id false false (ev := false) ++
      (if t.unitOk then pairState "C94" m t.unit (Order.times 5) (Event.times 5) false false else []) ++
      pairState "C95" plain' t.mirror mir.order mir.event true true)
    let r := { r with steps := r.steps + 1, posted := L.posted.length + r.posted, fills := r.fills + (fills (pending m)).length }
    if (m.orders .bid).toOption.isSome && (m.orders .ask).toOption.isSome && m.events.toOption.isSome then goMore c m t plain' is L st w (n + 1) g r k else (r, g)

def mainMore (runs len seed : Nat) : IO Unit := do
  let mut r : Rep := {}
  let mut g := seed
  for _ in [0:runs] do
    let (c, g1) := genConfig g
    let big := { c with capEvents := 200 }
    -- C95: the tick of the mirrored market and of its original must divide all prices
    let pl := { c with tick := 1 }
    let mi := { c with tick := 1, minBase := c.minBase * 3, capBids := c.capAsks, capAsks := c.capBids }
    let z : DemoCb := ⟨0, 0⟩
    let t : Two := { big := big.market z, named := c.market z, unit := (c.times 5).market z, mirror := mi.market z }
    let (r1, g2) := goMore c (c.market z) t (pl.market z) [] {} [] [{}, {}, {}] 0 g1 r len
    r := r1; g := g2
  IO.println s!"STEPS {r.steps} POSTED {r.posted} FILLS {r.fills}"
  IO.println s!"VIOLATED {" ".intercalate (r.bad.map (·.1))}"

end Mon
#eval Mon.mainMore 150 25 777
