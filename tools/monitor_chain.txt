import Verif.Spec.DemoChain
import Verif.Spec.Client
import Verif.Spec.Range
/-
Executable copies of the conclusions of the theorems on accounts, bytes, instruction data and the client, evaluated along
random histories of a chain with two markets, forged accounts, wrong accounts and damaged data. A reported name means: the
statement of that theorem is false for this program. Used by tools/mutate.py.
-/
open AOB DemoChain
namespace Mon
abbrev B := Bytes32
abbrev M := Market B

def imp (a b : Bool) : Bool := !a || b
infixr:25 " ==> " => imp
def okd {α : Type} (r : Res α) : Bool := match r with | .ok _ => true | .error _ => false
def eqOk {α : Type} [DecidableEq α] (r : Res α) (x : α) : Bool := match r with | .ok y => decide (y = x) | .error _ => false

def pool : List Pubkey := [1, 2, 3, 4, 11, 12, 13, 14, 5, 6, 7, 21, 22, 23, 24, 31].map key
def isR (k : Pubkey) : Bool := decide (k = key 6)
/-- A world as a table. -/
structure Table where
  rows : List (Pubkey × Account)
def Table.world (t : Table) : World := fun k => match t.rows.find? (fun x => decide (x.1 = k)) with | some x => x.2 | none => ⟨key 0, 7, []⟩
def tidy (w : World) : Table := ⟨pool.map fun k => (k, w k)⟩

def isMarket (w : World) (k : Pubkey) : Bool :=
  decide ((w k).owner = env.programId) && decide ((w k).data.length = 120) && decide (field (w k).data 0 8 = 128)
def load (w : World) (k : Pubkey) : Option M := (loadMarket B w k).toOption
def own (w : World) (k : Pubkey) : List Pubkey := [k, (stateAt w k).eventQueue, (stateAt w k).bids, (stateAt w k).asks]
def markets (w : World) : List Pubkey := pool.filter fun k => isMarket w k && !isR k
def empty (m : M) : Bool := (resting m .bid).isEmpty && (resting m .ask).isEmpty && (pending m).isEmpty
def number : Ix B → UInt8
  | .createMarket _ => 0 | .newOrder _ => 1 | .consumeEvents _ => 2 | .cancelOrder _ => 3 | .closeMarket => 4 | .massCancelOrders _ => 5
def inRange : Ix B → Bool
  | .createMarket p => decide (p.minBaseOrderSize < 2 ^ 64) && decide (p.tickSize < 2 ^ 64)
  | .newOrder p => decide (p.maxBaseQty < 2 ^ 64) && decide (p.maxQuoteQty < 2 ^ 64) && decide (p.limitPrice < 2 ^ 64) && decide (p.matchLimit < 2 ^ 64)
  | .consumeEvents n => decide (n < 2 ^ 64)
  | .cancelOrder id => decide (id < 2 ^ 128)
  | .closeMarket => true
  | .massCancelOrders ids => ids.all fun id => decide (id < 2 ^ 128)
def zero32 : B := ⟨List.replicate 32 0, List.length_replicate⟩
def fresh (m : M) : Bool := [m.book.bids, m.book.asks].all (fun s =>
    decide (s = Slab.zeroed s.innerNodes.length zero32 (s.callbackInfos.length - s.leafNodes.length))) && decide (m.queue = EventQueue.zeroed m.queue.events.length zero32)

/-- Statements about what the client shows of a market. -/
def client (w : World) (k : Pubkey) (m : M) : List (String × Bool) :=
  let st := stateAt w k
  ("C59_market", eqOk (Js.readMarketState (w k).data) (128, st)) ::
  ("C52", match Js.EventQueue.parse 32 (w st.eventQueue).data with
    | .error _ => false
    | .ok js => decide (js.header.count = (pending m).length) &&
        (List.range (pending m).length).all (fun i => match (pending m)[i]? with
          | none => false
          | some e => eqOk (js.peekAt i) (Js.eventOf e)) &&
        (decide (field (w st.eventQueue).data 8 8 = 0) ==> [none, some 0, some 1, some 2, some 9].all fun limit =>
          eqOk (js.parseFill limit) (((match limit with
            | some (l + 1) => (pending m).take (l + 1)
            | _ => pending m).map Js.eventOf).filter Js.Event.isFill))) ::
  ([Side.bid, .ask].flatMap fun side =>
    let d := (w (Js.slabKey st side)).data
    let os := resting m side
    let n := (d.length - 8) / 88
    if d.length = 8 + 32 + n * 24 + (n - 1) * 32 + n * 32 then
      match Js.Slab.deserialize d 32 with
      | .error _ => [("C59_slab", false)]
      | .ok js => [("C59_slab", decide (js.orderCapacity + 1 = n) && decide (Js.Slab.computeAllocationSize n 32 = d.length) &&
          [true, false].all (fun b => eqOk (js.items b) ((Js.listed side b os).map Js.refOf) &&
            [0, 1, 2, 5].all fun c => eqOk (js.getMinMaxNodes c b) (((Js.listed side b os).take c).map Js.refOf)) &&
          ([1, 2 ^ 128 - 1, 10 * 2 ^ 96] ++ os.map Order.id).all fun id =>
            eqOk (js.getNodeByKey id) ((os.find? (fun (o : Order B) => decide (o.id = id))).map (fun (o : Order B) => (⟨o.id, o.qty⟩ : LeafNode)))),
        ("C51", [true, false].all fun inc => [0, 1, 2, 5].all fun depth =>
          eqOk (js.getL2DepthJS depth inc) ((Js.levels (Js.listed side (!inc) os)).take depth))]
    else [])

/-- Statements about a world. -/
def state (w : World) : List (String × Bool) :=
  let ms := markets w
  (ms.flatMap fun k => match load w k with
    | none => []
    | some m => client w k m ++
       [("C57", if 2 ^ 63 < m.queue.header.seqNum then true else
          let ids := ((resting m .bid) ++ (resting m .ask)).map Order.id
          let ds := ids.map cancel ++ [consume 1000]
          let r := ds.foldl (fun (r : Res World) d => do let w ← r; let (_, w) ← Processor.processInstruction env B w (own w k) d; .ok w) (.ok w)
          match r with
          | .error _ => false
          | .ok w1 => match Processor.processInstruction env B w1 (own w k ++ [key 5]) [4] with | .ok (none, _) => true | _ => false),
        ("C37_close_succeeds", empty m ==> okd (Processor.closeMarket env B w ⟨k, (stateAt w k).eventQueue, (stateAt w k).bids, (stateAt w k).asks⟩ (key 7))),
        ("C56_alias", match entrypoint env B w (own w k ++ [k]) (2 :: List.replicate 8 0) with
          | .error _ => false
          | .ok w' => !isMarket w' k && decide (field (w' k).data 0 8 = 0)),
        ("C43_slab", [(Side.bid, AccountTag.bids), (.ask, .asks)].all fun (s, t) => let d := (w (Js.slabKey (stateAt w k) s)).data
          match Slab.fromBuffer B d t with | .ok x => decide (x.writeBack d = d) | .error _ => false),
        ("C43_queue", let d := (w (stateAt w k).eventQueue).data
          match EventQueue.fromBuffer B d .eventQueue with | .ok (x, d') => decide (x.writeBack d' = d') && decide (d' = d) | .error _ => false),
        ("C43_market", let d := (w k).data
          match MarketState.fromBuffer d .market with | .ok (x, d') => decide (x.writeBack d' = d') && decide (d' = d) | .error _ => false)]) ++
  [("C41_disjoint", ms.all fun j => ms.all fun k => decide (j = k) || (own w j).all fun x => decide (x ∉ own w k))]

def total (w : World) : Nat := (pool.map fun k => (w k).lamports).sum

/-- Statements about a call. -/
def called (w : World) (accounts : List Pubkey) (data : Bytes) : List (String × Bool) :=
  let res := Processor.processInstruction env B w accounts data
  match decodeIx B data with
  | .error _ => [("decode", !okd res)]
  | .ok ix =>
    let acc := accounts.take ix.arity
    let isCreate := match ix with | .createMarket _ => true | _ => false
    let isConsume := match ix with | .consumeEvents _ => true | _ => false
    let isClose := match ix with | .closeMarket => true | _ => false
    [("C38_refused", acc.any (fun k => decide ((w k).data[0]? = some 132)) ==> !okd res),
     ("C39_create_iff", match ix, accounts with
       | .createMarket p, m :: q :: b :: a :: _ => okd (Processor.createMarket env B w ⟨m, q, b, a⟩ p) ==
          (decide ((w q).owner = env.programId) && decide ((w b).owner = env.programId) && decide ((w a).owner = env.programId) &&
           [m, q, b, a].all (fun k => env.rentExempt (w k).lamports (w k).data.length) && decide [m, q, b, a].Nodup &&
           decide (p.minBaseOrderSize ≠ 0) && decide (p.tickSize ≠ 0) && decide (field (w m).data 0 8 = 0) &&
           decide (field (w q).data 0 8 = 0) && decide ((w b).data[0]? = some 0) && decide ((w a).data[0]? = some 0) &&
           decide ((w m).data.length = 120) && let l := (w q).data.length
           decide (32 + 5 * 104 ≤ l) && decide ((l - 32) % 104 = 0))
       | _, _ => true),
     ("C39_uninitialized_only", (isCreate && acc.any (fun k => match (w k).data[0]? with | some v => decide (v ≠ 0) | none => false)) ==> !okd res),
     ("C55", match ix.instr with
       | none => true
       | some i => (markets w).all fun k => match load w k with
          | none => true
          | some m => match m.exec i, Processor.processInstruction env B w (own w k) data, Processor.processInstruction env B w (own w k ++ [key 7]) data with
            | .error e, .error e', .error e2 => decide (e = e') && decide (e = e2)
            | .ok (r, m'), .ok (r', w'), .ok (r2, _) => decide (r = r') && decide (r = r2) && isMarket w' k && decide (stateAt w' k = stateAt w k) && decide (load w' k = some m')
            | _, _, _ => false)] ++
    match res with
    | .error _ => []
    | .ok (r, w') =>
      [("C37_empty", isClose ==> match accounts[0]? with
          | none => false
          | some k => match load w k with | none => false | some m => empty m),
       ("C37_lamports", isClose ==> match accounts with
          | m :: q :: b :: a :: t :: _ => decide ((w' t).lamports = (w t).lamports + (w m).lamports + (w q).lamports + (w b).lamports + (w a).lamports) &&
             decide ((w' m).lamports = 0) && decide ((w' q).lamports = 0) && decide ((w' b).lamports = 0) && decide ((w' a).lamports = 0) && decide ((w' t).lamports < 2 ^ 64) &&
             pool.all fun k => decide (k ∈ [m, q, b, a, t]) || decide ((w' k).lamports = (w k).lamports)
          | _ => false),
       ("C37_total", decide (total w' = total w)),
       ("C38_disabled", isClose ==> acc.all fun k => decide ((w' k).data[0]? = some 132) && decide (field (w' k).data 0 8 = 132)),
       ("C38_unchanged", pool.all fun k => decide ((w k).data[0]? = some 132) ==> decide ((w' k).data = (w k).data)),
       ("C39_stays", pool.all fun k => (match (w k).data[0]? with | some v => decide (v ≠ 0) | none => false) ==>
          (match (w' k).data[0]? with | some v => decide (v ≠ 0) | none => false)),
       ("C39_tags", isCreate ==> decide (acc.map (fun k => (w' k).data[0]?) = [some 128, some 129, some 130, some 131])),
       ("C39_state", match ix, accounts with
          | .createMarket p, m :: q :: b :: a :: _ => decide (stateAt w' m = ⟨q, b, a, p.minBaseOrderSize, p.tickSize⟩)
          | _, _ => true),
       ("C40_market_and_queue", isCreate || match accounts with
          | k :: q :: _ => isMarket w k && decide (q = (stateAt w k).eventQueue)
          | _ => false),
       ("C40_bids_and_asks", isCreate || isConsume || match accounts with
          | k :: _ :: b :: a :: _ => decide (b = (stateAt w k).bids) && decide (a = (stateAt w k).asks) && decide ((w b).data[0]? = some 130) && decide ((w a).data[0]? = some 131)
          | _ => false),
       ("C40_owners", isCreate || isClose || acc.all fun k => decide ((w k).owner = env.programId)),
       ("C41_frame", pool.all fun k => (decide (k ∉ accounts) ==> decide (w' k = w k)) && decide ((w' k).owner = (w k).owner) &&
          decide ((w' k).data.length = (w k).data.length) && (!isClose ==> decide ((w' k).lamports = (w k).lamports))),
       ("C41_isolation", (markets w).all fun k => decide (accounts.head? = some k) || (own w k).all fun j => decide ((w' j).data = (w j).data)),
       ("C54_step", (markets w).all fun k => match load w k with
          | none => true
          | some m => (isMarket w' k && decide (load w' k = some m)) ||
             (match ix.instr with
              | none => false
              | some i => match m.exec i with | .error _ => false | .ok (_, m') => isMarket w' k && decide (load w' k = some m')) ||
             (isClose && empty m && decide ((w' k).data[0]? = some 132))),
       ("C54_appears", (markets w').all fun k => isMarket w k || match ix, load w' k with
          | _, none => true
          | .createMarket p, some m => decide (accounts.head? = some k) && decide (m.minBaseOrderSize = p.minBaseOrderSize) && decide (m.tickSize = p.tickSize) && empty m && fresh m
          | _, _ => false),
       ("C46", let d := List.replicate 50 (7 : UInt8)
          decide ((encRegister r).length ≤ 42) && match writeRegister d r with
            | .error _ => false
            | .ok d' => (match decRegister d' with | some (r', _) => decide (r = r') | none => false) && decide (d'.length = 50) && decide (d'.drop 42 = d.drop 42)),
       ("C46_short", match r with
          | some s => s.postedOrderId.isNone || !okd (writeRegister (List.replicate 41 0) r)
          | none => true),
       ("C56", match entrypoint env B w (accounts ++ [key 6]) data with
          | .error _ => false
          | .ok w2 => (decide ((w2 (key 6)).data[0]? = some 0) || decide ((w2 (key 6)).data[0]? = some 1)) &&
             (match decRegister (w2 (key 6)).data with | some (r', _) => decide (r = r') | none => false) &&
             pool.all fun k => isR k || decide (w2 k = w' k))]

/-! ### Random histories -/

def next (g : Nat) : Nat := (g * 6364136223846793005 + 1442695040888963407) % 2 ^ 64
def draw (g n : Nat) : Nat × Nat := let g := next g; ((g / 2 ^ 33) % n, g)
instance : Inhabited Pubkey := ⟨key 0⟩
instance : Inhabited Side := ⟨.bid⟩
instance : Inhabited SelfTradeBehavior := ⟨.decrementTake⟩
def pick {α : Type} [Inhabited α] (g : Nat) (l : List α) : α × Nat := let (i, g) := draw g l.length; (l[i]!, g)

/-- A world before the program was called. -/
def genWorld (g : Nat) : Table × Nat :=
  let slab : List Nat := [96, 184, 184, 272, 216, 360, 50, 100]
  let queue : List Nat := [552, 552, 656, 448, 560, 32 + 104 * 12]
  let (q1, g) := pick g queue; let (q2, g) := pick g [552, 552, 760]
  let (b1, g) := pick g slab; let (b2, g) := pick g [184, 272]
  let (a1, g) := pick g slab; let (a2, g) := pick g [184, 272]
  let (mo, g) := pick g [key 9, key 9, key 9, key 0]
  let (l, g) := pick g [100, 3000, 3000, 3000]
  let z (n : Nat) : Bytes := List.replicate n 0
  let l2 : List (Pubkey × Account) := [(key 1, ⟨mo, 1000, z 120⟩), (key 2, ⟨key 9, 5000, z q1⟩), (key 3, ⟨key 9, l, z b1⟩), (key 4, ⟨key 9, 4000, z a1⟩),
    (key 11, ⟨key 9, 1000, z 120⟩), (key 12, ⟨key 9, 5000, z q2⟩), (key 13, ⟨key 9, 3000, z b2⟩), (key 14, ⟨key 9, 4000, z a2⟩),
    (key 6, ⟨key 9, 500, z 42⟩), (key 31, ⟨key 9, 1001, z 120⟩)]
  (⟨l2⟩, g)

def genOrder (g : Nat) : NewOrderParams B × Nat :=
  let (side, g) := pick g [Side.bid, .ask]
  let (q, g) := draw g 8
  let (p, g) := draw g 5
  let (u, g) := draw g 4
  let (ml, g) := pick g [0, 1, 2, 10, 10, 10]
  let (st, g) := pick g [SelfTradeBehavior.decrementTake, .cancelProvide, .abortTransaction]
  let (po, g) := pick g [true, false, false, false]
  let (pa, g) := pick g [true, true, true, false]
  let (lim, g) := pick g [(p + 1) * 2 ^ 32, (p + 1) * 2 ^ 32, (p + 1) * 2 ^ 32, 5, 2 ^ 64 - 1]
  ({ maxBaseQty := q + 1, maxQuoteQty := 1000, limitPrice := lim, side := side, matchLimit := ml, callbackInfo := key (UInt8.ofNat u),
     postOnly := po, postAllowed := pa, selfTradeBehavior := st }, g)

def genIx (w : World) (k : Pubkey) (g : Nat) : Ix B × Nat :=
  let (kind, g) := draw g 16
  let ids := match load w k with | some m => ((resting m .bid) ++ (resting m .ask)).map Order.id | none => []
  let (again, g) := draw g 3
  if kind < 2 ∨ ((load w k).isNone ∧ again ≠ 0) then
    let (mb, g) := pick g [1, 1, 2, 2, 2, 0]; let (t, g) := pick g [1, 1, 1, 1, 2 ^ 32, 0]
    (.createMarket ⟨mb, t⟩, g)
  else if kind < 9 then let (p, g) := genOrder g; (.newOrder p, g)
  else if kind < 11 then let (i, g) := draw g (ids.length + 1); (.cancelOrder (ids.getD i 77), g)
  else if kind = 11 then let (i, g) := draw g (ids.length + 1); (.massCancelOrders (ids.take i), g)
  else if kind < 14 then let (n, g) := draw g 6; (.consumeEvents n, g)
  else (.closeMarket, g)

structure Rep where
  bad : List String := []
  steps : Nat := 0
  succ : List Nat := [0, 0, 0, 0, 0, 0]

def Rep.add (r : Rep) (l : List (String × Bool)) : Rep :=
  l.foldl (fun r x => if x.2 || r.bad.any (· == x.1) then r else { r with bad := r.bad ++ [x.1] }) r

/-- Statements about instruction data. -/
def dataChecks (ix : Ix B) (g : Nat) : List (String × Bool) × Nat :=
  let d := number ix :: ix.params
  let close := match ix with | .closeMarket => true | _ => false
  let mass := match ix with | .massCancelOrders _ => true | _ => false
  let (i, g) := draw g d.length
  let (v, g) := draw g 256
  let (cut, g) := draw g d.length
  let d2 := d.set i (UInt8.ofNat v)
  let exact (d : Bytes) : Bool := match decodeIx B d with
    | .error _ => true
    | .ok j => inRange j && (decide (d = number j :: j.params) || (decide (j = .closeMarket) && decide (d.head? = some 4)))
  ([("C45_decode", eqOk (decodeIx B d) ix),
    ("C45_bindings", if mass then eqOk (decodeIx B ix.binding) .closeMarket else eqOk (decodeIx B ix.binding) ix),
    ("C45_exact", exact d2 && exact (d ++ [1]) && exact (d.take cut)),
    ("C45_overlong", close || !okd (decodeIx B (d ++ [0]))),
    ("C45_truncated", close || !okd (decodeIx B (d.take cut))),
    ("C45_unknown", [6, 7, 255].all fun b => match decodeIx B (b :: d) with | .error e => decide (e = .prog .invalidInstructionData) | .ok _ => false),
    ("C58_encodings", match ix with
      | .cancelOrder id => eqOk (decodeIx B (Js.Ix.cancelOrder id).serialize) ix
      | .consumeEvents n => eqOk (decodeIx B (Js.Ix.consumeEvents n).serialize) ix
      | .massCancelOrders ids => eqOk (decodeIx B (Js.Ix.massCancelOrder ids).serialize) ix
      | .closeMarket => eqOk (decodeIx B Js.Ix.closeMarket.serialize) ix
      | .newOrder p =>
        let js (cb : Bytes) := (Js.Ix.newOrder p.maxBaseQty p.maxQuoteQty p.limitPrice (Js.sideNumber p.side) p.matchLimit cb (Js.boolNumber p.postOnly)
          (Js.boolNumber p.postAllowed) (Js.selfTradeNumber p.selfTradeBehavior)).serialize
        !okd (decodeIx B (js p.callbackInfo.1)) && (match decodeIx B (js (p.callbackInfo.1.take 28)) with
          | .ok (.newOrder q) => decide (q.callbackInfo.1 = [28, 0, 0, 0] ++ p.callbackInfo.1.take 28) && decide ({ q with callbackInfo := p.callbackInfo } = p)
          | _ => false)
      | .createMarket p => [0, 1].all fun x => !okd (decodeIx B (Js.Ix.createMarket (List.replicate 32 1) x x p.minBaseOrderSize p.tickSize 0).serialize)),
    ("C58_accounts",
      let f (i : Js.Ix) := i.keys (key 1) (key 2) (key 3) (key 4) (key 5) (key 6)
      let a : BookAccounts := ⟨key 1, key 2, key 3, key 4⟩
      eqOk (BookAccounts.parse (f (.createMarket [] 0 0 0 0 0))) a && eqOk (BookAccounts.parse (f (.newOrder 0 0 0 0 0 [] 0 0 0))) a &&
      eqOk (BookAccounts.parse (f (.cancelOrder 0))) a && eqOk (BookAccounts.parse (f (.massCancelOrder []))) a &&
      eqOk (parseConsume (f (.consumeEvents 0))) (key 1, key 2) && eqOk (parseClose (f .closeMarket)) (a, key 5))], g)

/-- Statements about sizes, events in bytes and rounding. -/
def fixed : List (String × Bool) :=
  let o : OutEvent := ⟨0, 1, List.replicate 14 0, 5 * 2 ^ 70 + 3, 77⟩
  let f : FillEvent := ⟨9, 1, List.replicate 6 0, 10, 7 * 2 ^ 64 + 1, 12⟩
  [("C42_slab", [1, 2, 3, 7].all fun n => match Slab.computeAllocationSize B n with
      | .error _ => false
      | .ok l => decide (l = 8 + 32 + n * 24 + (n - 1) * 32 + n * 32) && match Slab.fromBuffer B (130 :: List.replicate (l - 1) 0) .bids with
        | .error _ => false
        | .ok s => decide (s = Slab.zeroed (n - 1) zero32)),
   ("C42_queue", [1, 4, 5, 6].all fun n => let l := EventQueue.computeAllocationSize B n
      let d : Bytes := 129 :: List.replicate (l - 1) 0
      decide (l = 32 + n * 40 + 2 * n * 32) && (okd (EventQueue.checkBufferSize B d) == decide (5 ≤ n)) && !okd (EventQueue.checkBufferSize B (d ++ [0])) &&
      !okd (EventQueue.checkBufferSize B d.tail) && match EventQueue.fromBuffer B d .eventQueue with
        | .error _ => false
        | .ok (q, d') => decide (d' = d) && decide (q = EventQueue.zeroed n zero32)),
   ("C59_sizes", [1, 2, 3, 7].all fun n => eqOk (Slab.computeAllocationSize B n) (Js.Slab.computeAllocationSize n 32) &&
      decide (EventQueue.computeAllocationSize B n = Js.EventQueue.computeAllocationSize n 32)),
   ("C44", decide (o.toGeneric.toBytes = ({ o with tag := 1 } : OutEvent).toBytes) && decide ((FillEvent.ofBytes o.toGeneric.toBytes).tag = 1) &&
      decide ((FillEvent.ofBytes o.toGeneric.toBytes).castOut = { o with tag := 1 }) && decide (FillEvent.ofBytes f.toGeneric.toBytes = { f with tag := 0 })),
   ("C43_random", let s : Slab B := ⟨⟨1, 2, 3, 4, 5, 6, 7, 8⟩, [⟨2 ^ 100 + 1, 9⟩, ⟨3, 2 ^ 63⟩], [⟨2 ^ 120 + 5, 6, 7, 8⟩], [key 1, key 2]⟩
      let d : Bytes := 130 :: List.replicate 183 0
      let q : EventQueue B := ⟨⟨1, 2, 3⟩, List.replicate 5 f, List.replicate 10 (key 3)⟩
      let dq : Bytes := 129 :: List.replicate 551 0
      let dm : Bytes := 128 :: List.replicate 119 0
      let ms : MarketState := ⟨key 1, key 2, key 3, 4, 5⟩
      eqOk (Slab.fromBuffer B (s.writeBack d) .bids) s && eqOk (EventQueue.fromBuffer B (q.writeBack dq) .eventQueue) (q, q.writeBack dq) &&
      eqOk (MarketState.fromBuffer (ms.writeBack dm) .market) (ms, ms.writeBack dm)),
   ("C36", [1, 3, 7, 2 ^ 32].all fun t => [0, 1, 5, 6, 7, 20, 2 ^ 33 + 5].all fun l =>
      eqOk (roundPrice t l .bid) (l / t * t) && eqOk (roundPrice t l .ask) ((l + t - 1) / t * t))]

partial def go (t : Table) (g : Nat) (r : Rep) : Nat → Rep × Nat
  | 0 => (r, g)
  | n + 1 =>
    let w := t.world
    let (kind, g) := draw g 12
    if kind = 0 then
      -- somebody else: forged copies, removed accounts, gifts
      let (src, g) := pick g [1, 2, 3, 4, 11, 12, 13, 14]
      let (dst, g) := pick g [21, 22, 23, 24, 7]
      let t := tidy fun k => if k = key dst then { w (key src) with owner := key 0 } else
        if (w k).lamports = 0 ∧ (w k).owner = key 9 then ⟨key 9, 6000, List.replicate (w k).data.length 0⟩ else w k
      go t g (r.add (state t.world)) n
    else
      let (mk, g) := pick g [key 1, key 1, key 11, key 11, key 11, key 31]
      let quad := if mk = key 1 then [key 1, key 2, key 3, key 4] else if mk = key 11 then [key 11, key 12, key 13, key 14] else [key 31, key 2, key 3, key 4]
      let (drain, g) := draw g 14
      let t := if drain = 0 then match load w mk with
        | none => t
        | some m => tidy (after (((resting m .bid ++ resting m .ask).map Order.id).foldl (fun w id => after w quad (cancel id)) w) quad (consume 1000))
        else t
      let w := t.world
      let (ix, g) := if drain = 0 then (Ix.closeMarket, g) else genIx w mk g
      let (bad, g) := draw g 5
      let (i, g) := draw g 5
      let (x, g) := pick g pool
      let acc := quad ++ [key 5]
      let acc := if bad = 0 ∧ !isR x then acc.set i x else if bad = 1 then acc.take i else acc
      let (dm, g) := draw g 12
      let (j, g) := draw g 40
      let (v, g) := draw g 256
      let d := number ix :: ix.params
      let data := if dm = 0 then d.set j (UInt8.ofNat v) else if dm = 1 then d.take j else d
      let (dc, g) := dataChecks ix g
      let r := r.add (called w acc data ++ dc)
      let r := match Processor.processInstruction env B w acc data with
        | .ok _ => { r with succ := r.succ.modify (data.headD 0).toNat (· + 1) }
        | .error _ => r
      let t := tidy (after w acc data)
      go t g ({ r with steps := r.steps + 1 }.add (state t.world)) n

def main (runs len seed : Nat) : IO Unit := do
  let mut r : Rep := {}
  r := r.add fixed
  let mut g := seed
  for _ in [0:runs] do
    let (w, g1) := genWorld g
    let (r1, g2) := go w g1 r len
    r := r1; g := g2
  IO.println s!"STEPS {r.steps} SUCCESS {r.succ}"
  IO.println s!"VIOLATED {" ".intercalate r.bad}"

end Mon
#eval Mon.main 25 60 20240
