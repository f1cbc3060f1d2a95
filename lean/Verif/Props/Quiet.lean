import Verif.Spec.Quiet
import Verif.Props.Exchange
/-
C105: what rests depends on who came first only within a price.
-/
namespace AOB
variable {C : Type}

/-! ### Lists -/

theorem level_insert {side : Side} {o : Order C} {l : List (Order C)} {seq : Nat} (hseq : seq < 2 ^ 64)
    (hl : ∀ x ∈ l, ∃ n < seq, x.id = mkOrderId side x.price n) (ho : o.id = mkOrderId side o.price seq)
    (hs : l.Pairwise side.before) (price : Nat) :
    level (insertOrder side o l) price = level l price ++ if o.price = price then [o] else [] := by
  obtain ⟨L, R, rfl, h2, h3, h4⟩ := insertOrder_split hseq hl ho hs
  rw [h2]
  unfold level
  simp only [List.filter_append, List.filter_cons]
  by_cases hp : o.price = price
  · have hR : R.filter (fun o => o.price == price) = [] := by
      rw [List.filter_eq_nil_iff]
      intro x hx hxp
      have hxp : x.price = price := by simpa using hxp
      obtain ⟨n, hn, hid⟩ := hl x (by simp [hx])
      have := (before_iff hseq (by omega) ho hid).1 (h4 x hx)
      cases side <;> simp only at this <;> omega
    simp [hp, hR]
  · simp [hp]

/-- Two lists sorted by price that agree at every price are the same. -/
theorem eq_of_levels {side : Side} : ∀ {l1 l2 : List (Nat × Nat × C)},
    l1.Pairwise (fun x y => side.asGood x.1 y.1 = true) → l2.Pairwise (fun x y => side.asGood x.1 y.1 = true) →
    (∀ price, l1.filter (fun x => x.1 == price) = l2.filter (fun x => x.1 == price)) → l1 = l2
  | [], [], _, _, _ => rfl
  | [], y :: t, _, _, h => by have := h y.1; simp at this
  | x :: t, [], _, _, h => by have := h x.1; simp at this
  | x :: t1, y :: t2, h1, h2, h => by
    rw [List.pairwise_cons] at h1 h2
    have hx : x ∈ y :: t2 := by
      have : x ∈ (y :: t2).filter (fun z => z.1 == x.1) := by rw [← h]; simp
      exact (List.mem_filter.1 this).1
    have hy : y ∈ x :: t1 := by
      have : y ∈ (x :: t1).filter (fun z => z.1 == y.1) := by rw [h]; simp
      exact (List.mem_filter.1 this).1
    have hxy : x.1 = y.1 := by
      rcases List.mem_cons.1 hx with rfl | hx
      · rfl
      · rcases List.mem_cons.1 hy with rfl | hy
        · rfl
        · have a := h1.1 y hy
          have b := h2.1 x hx
          cases side <;> simp only [Side.asGood, decide_eq_true_iff] at a b <;> omega
    have hp := h x.1
    rw [List.filter_cons_of_pos (by simp), List.filter_cons_of_pos (by simp [hxy])] at hp
    have hxy' : x = y := (List.cons.inj hp).1
    subst hxy'
    rw [eq_of_levels h1.2 h2.2 fun price => ?_]
    have hq := h price
    simp only [List.filter_cons] at hq
    split at hq
    · exact (List.cons.inj hq).2
    · exact hq

theorem level_face (l : List (Order C)) (price : Nat) :
    (l.map Order.face).filter (fun x => x.1 == price) = (level l price).map Order.face := by
  unfold level
  induction l with
  | nil => rfl
  | cons o l ih =>
    simp only [List.map_cons, List.filter_cons, ih]
    have : (o.face.1 == price) = (o.price == price) := rfl
    rw [this]
    split <;> simp

/-! ### One order -/

variable [CallbackInfo C] {m m' : Market C} {p : NewOrderParams C} {ps : List (NewOrderParams C)}

/-- The market after posting without anything else. -/
def RefMarket.rest (a : RefMarket C) (p : NewOrderParams C) : RefMarket C :=
  { a.setOrders p.side (insertOrder p.side ⟨mkOrderId p.side p.limitPrice a.seq, p.face.2.1, p.callbackInfo⟩ (a.orders p.side))
    with seq := a.seq + 1 }

omit [CallbackInfo C] in
theorem rest_orders (a : RefMarket C) (p : NewOrderParams C) (side : Side) : (a.rest p).orders side =
    if p.side = side then insertOrder side ⟨mkOrderId p.side p.limitPrice a.seq, p.face.2.1, p.callbackInfo⟩ (a.orders side)
    else a.orders side := by
  unfold RefMarket.rest
  cases hs : p.side <;> cases side <;> rfl

theorem refMatch_quiet {mb n room : Nat} {opp : List (Order C)} {b q : Nat} {r : MatchOut C}
    (h : refMatch p mb n room opp b q true = .ok r) (hev : r.events = []) (hcr : r.crossed = false) :
    0 < n ∧ r = ⟨[], opp, b, q, false⟩ ∧ ∀ o ∈ opp.head?, p.side.accepts p.limitPrice o.price = false := by
  cases n with
  | zero => simp only [refMatch, Except.ok.injEq] at h; subst h; cases hcr
  | succ n =>
    cases opp with
    | nil => simp only [refMatch, Except.ok.injEq] at h; subst h; simp
    | cons o rest =>
      unfold refMatch at h
      split at h
      · simp only [Except.ok.injEq] at h; subst h; simp_all
      · simp only at h
        have hem : ∀ {es : List (Event C)} {x : Except AoError (MatchOut C)}, es ≠ [] → x.map (MatchOut.emit es) ≠ .ok r := by
          intro es x hes hx
          cases x with
          | error e => cases hx
          | ok y =>
            simp only [Except.map, Except.ok.injEq] at hx
            subst hx
            simp only [MatchOut.emit, List.append_eq_nil_iff] at hev
            exact hes hev.1
        repeat' split at h
        all_goals first
          | (simp only [Except.ok.injEq] at h; subst h; cases hcr)
          | cases h
          | exact absurd h (hem (by simp))

/-- When a new order is posted and does nothing else. -/
structure Calm1 (a : RefMarket C) (p : NewOrderParams C) : Prop where
  postable : Postable a.minBase a.tick p
  apart : ∀ o ∈ a.orders p.side.opposite, p.side.accepts p.limitPrice o.price = false
  room : (a.orders p.side).length < a.cap p.side
  seq : a.seq + 1 < 2 ^ 64

theorem calm_of_quiet {a a' : RefMarket C} {s : OrderSummary} (ha : RefInv a) (h : a.newOrder p = .ok (s, a'))
    (hs : s.postedOrderId.isSome = true) (hev : a'.events = a.events) : Calm1 a p ∧ a' = a.rest p := by
  rw [newOrder_eq] at h
  split at h
  · cases h
  rename_i ht
  split at h
  · cases h
  rename_i hlp
  split at h
  · cases h
  rename_i r hr
  unfold RefMarket.finish at h
  simp only at h
  split at h
  · cases h; cases hs
  rename_i hnp
  split at h
  · cases h
  rename_i hseq
  split at h
  · cases h
  rename_i po hpo
  split at h
  swap
  · cases h; cases hs
  rename_i hposted
  simp only [Except.ok.injEq, Prod.mk.injEq] at h
  obtain ⟨rfl, rfl⟩ := h
  have hev' : a.events ++ r.events ++ po.events = a.events := hev
  rw [List.append_assoc, List.append_right_eq_self, List.append_eq_nil_iff] at hev'
  simp only [Bool.or_eq_true, decide_eq_true_eq, Bool.not_eq_true', not_or, Bool.not_eq_true, not_lt] at hnp
  obtain ⟨hn, rfl, hhead⟩ := refMatch_quiet hr hev'.1 hnp.1.1
  have hself : ∀ side : Side, (a.setOrders side (a.orders side)) = a := by
    intro side; cases side <;> rfl
  simp only [List.append_nil, hself] at hpo ⊢
  unfold refPost at hpo
  split at hpo
  · rename_i hroom
    simp only [Except.ok.injEq] at hpo
    subst hpo
    refine ⟨⟨⟨?_, by simpa using not_or.1 hlp |>.1, ?_, hn, ?_⟩, ?_, hroom, by omega⟩, ?_⟩
    · simpa using hnp.1.2
    · have := (not_or.1 hlp).2
      have h1 : p.postAllowed = true := by simpa using hnp.1.2
      simp only [h1, true_and, not_lt] at this
      exact this
    · exact hnp.2
    · intro o ho
      cases hopp : a.orders p.side.opposite with
      | nil => rw [hopp] at ho; cases ho
      | cons x t =>
        have hx := hhead x (by simp [hopp])
        rw [hopp] at ho
        rcases List.mem_cons.1 ho with rfl | ho
        · exact hx
        · have hsrt := ha.sorted p.side.opposite
          rw [hopp, List.pairwise_cons] at hsrt
          have := before_price (hsrt.1 o ho)
          cases hside : p.side <;> rw [hside] at hx this <;>
            simp only [Side.accepts, Side.asGood, Side.opposite, decide_eq_false_iff_not, decide_eq_true_iff] at * <;> omega
    · simp only [RefMarket.rest, NewOrderParams.face, List.append_nil]
      cases p.side <;> rfl
  · split at hpo
    · simp only [Except.ok.injEq] at hpo; subst hpo; cases hposted
    · split at hpo
      · simp only [Except.ok.injEq] at hpo; subst hpo; cases hposted
      · split at hpo
        · cases hpo
        · simp only [Except.ok.injEq] at hpo; subst hpo; cases hev'.2

theorem quiet_of_calm {a : RefMarket C} (ht : 0 < a.tick) (h : Calm1 a p) :
    ∃ s, a.newOrder p = .ok (s, a.rest p) ∧ s.postedOrderId.isSome = true := by
  obtain ⟨⟨h1, h2, h3, h4, h5⟩, h6, h7, h8⟩ := h
  have hm : refMatch p a.minBase p.matchLimit (a.capEvents - a.events.length) (a.orders p.side.opposite)
      p.maxBaseQty p.maxQuoteQty true = .ok ⟨[], a.orders p.side.opposite, p.maxBaseQty, p.maxQuoteQty, false⟩ := by
    obtain ⟨n, hn⟩ : ∃ n, p.matchLimit = n + 1 := ⟨p.matchLimit - 1, by omega⟩
    rw [hn]
    cases hopp : a.orders p.side.opposite with
    | nil => rfl
    | cons o t =>
      have := h6 o (by simp [hopp])
      simp [refMatch, this]
  rw [newOrder_eq, if_neg (by omega), if_neg (by simp [h1, h2]; omega), hm]
  simp only [RefMarket.finish]
  have hself : ∀ side : Side, (a.setOrders side (a.orders side)) = a := by
    intro side; cases side <;> rfl
  have h5' : ¬ min (affordable p.maxQuoteQty p.limitPrice) p.maxBaseQty < a.minBase := not_lt.2 h5
  simp only [List.append_nil, hself, h1, h5', decide_false, Bool.or_false, Bool.not_true, Bool.false_eq_true, if_false,
    refPost, if_pos h7, if_true]
  rw [if_neg (by omega)]
  refine ⟨_, congrArg Except.ok (Prod.ext rfl ?_), rfl⟩
  simp only [RefMarket.rest, NewOrderParams.face]
  cases p.side <;> rfl

/-! ### Any number of orders -/

/-- How many of the new orders are of this side. -/
def countOf (ps : List (NewOrderParams C)) (side : Side) : Nat := ps.countP (fun p => p.side == side)

/-- When new orders are posted one after the other and do nothing else; the sequence in which they come does not matter. -/
structure Calm (a : RefMarket C) (ps : List (NewOrderParams C)) : Prop where
  postable : ∀ p ∈ ps, Postable a.minBase a.tick p
  apart : ∀ p ∈ ps, ∀ o ∈ a.orders p.side.opposite, p.side.accepts p.limitPrice o.price = false
  each : ∀ p ∈ ps, ∀ q ∈ ps, q.side = p.side.opposite → p.side.accepts p.limitPrice q.limitPrice = false
  room : ∀ side, (a.orders side).length + countOf ps side ≤ a.cap side
  seq : a.seq + ps.length < 2 ^ 64

omit [CallbackInfo C] in
theorem rest_price {a : RefMarket C} (h : a.seq < 2 ^ 64) (p : NewOrderParams C) (n : Nat) (x : C) :
    Order.price (⟨mkOrderId p.side p.limitPrice a.seq, n, x⟩ : Order C) = p.limitPrice := mkOrderId_price h

omit [CallbackInfo C] in
theorem calm_cons {a : RefMarket C} (hseq : a.seq < 2 ^ 64) :
    Calm1 a p ∧ Calm (a.rest p) ps ↔ Calm a (p :: ps) ∧ a.seq + 1 < 2 ^ 64 := by
  have hmb : (a.rest p).minBase = a.minBase ∧ (a.rest p).tick = a.tick ∧ (∀ side, (a.rest p).cap side = a.cap side) ∧
      (a.rest p).seq = a.seq + 1 := by
    unfold RefMarket.rest
    cases p.side <;> exact ⟨rfl, rfl, fun side => by cases side <;> rfl, rfl⟩
  obtain ⟨h1, h2, h3, h4⟩ := hmb
  have hcount : ∀ side, ((a.rest p).orders side).length + countOf ps side = (a.orders side).length + countOf (p :: ps) side := by
    intro side
    rw [rest_orders]
    unfold countOf
    rw [List.countP_cons]
    by_cases hs : p.side = side
    · simp only [hs, if_true, length_insertOrder, beq_self_eq_true]; omega
    · simp [hs]
  constructor
  · rintro ⟨c1, c2⟩
    have hq : ∀ q ∈ ps, q.side = p.side.opposite → q.side.accepts q.limitPrice p.limitPrice = false := by
      intro q hq hs
      have := c2.apart q hq ⟨mkOrderId p.side p.limitPrice a.seq, p.face.2.1, p.callbackInfo⟩
        (by rw [hs, rest_orders, opposite_opposite, if_pos rfl]; exact mem_insertOrder.2 (.inl rfl))
      rwa [rest_price hseq] at this
    refine ⟨⟨?_, ?_, ?_, ?_, ?_⟩, c1.seq⟩
    · intro q hq
      rcases List.mem_cons.1 hq with rfl | hq
      · exact c1.postable
      · have := c2.postable q hq; rwa [h1, h2] at this
    · intro q hq o ho
      rcases List.mem_cons.1 hq with rfl | hq
      · exact c1.apart o ho
      · refine c2.apart q hq o ?_
        rw [rest_orders]
        split
        · exact mem_insertOrder.2 (.inr ho)
        · exact ho
    · intro x hx y hy hs
      rcases List.mem_cons.1 hx with rfl | hx' <;> rcases List.mem_cons.1 hy with rfl | hy'
      · exact absurd hs.symm (opposite_ne _)
      · have := hq y hy' hs
        rw [hs] at this
        cases hside : x.side <;> rw [hside] at this <;>
          simp only [Side.accepts, Side.opposite, decide_eq_false_iff_not] at * <;> omega
      · exact hq x hx' (by rw [hs, opposite_opposite])
      · exact c2.each x hx' y hy' hs
    · intro side; rw [← hcount, ← h3]; exact c2.room side
    · have := c2.seq; rw [h4] at this; simp only [List.length_cons]; omega
  · rintro ⟨c, hseq1⟩
    refine ⟨⟨c.postable p (by simp), c.apart p (by simp), ?_, hseq1⟩, ⟨?_, ?_, ?_, ?_, ?_⟩⟩
    · have := c.room p.side
      unfold countOf at this
      rw [List.countP_cons] at this
      simp only [beq_self_eq_true, if_true] at this
      omega
    · intro q hq; rw [h1, h2]; exact c.postable q (by simp [hq])
    · intro q hq o ho
      rw [rest_orders] at ho
      split at ho
      · rename_i hs
        rcases mem_insertOrder.1 ho with rfl | ho
        · rw [rest_price hseq]
          exact c.each q (by simp [hq]) p (by simp) hs
        · exact c.apart q (by simp [hq]) o ho
      · exact c.apart q (by simp [hq]) o ho
    · intro x hx y hy hs; exact c.each x (by simp [hx]) y (by simp [hy]) hs
    · intro side; rw [hcount, h3]; exact c.room side
    · rw [h4]; have := c.seq; simp only [List.length_cons] at this; omega

theorem Known.rest {a : RefMarket C} (h : Known m a) (hp : (Instr.newOrder p).Ok) (hc : Calm1 a p) :
    ∃ s m', m.newOrder p = .ok (s, m') ∧ s.postedOrderId.isSome = true ∧ emitted m m' = [] ∧ Known m' (a.rest p) := by
  obtain ⟨s, h1, h2⟩ := quiet_of_calm h.tick hc
  have hr := newOrder_refines h.rep h.inv p hp
  rw [h1] at hr
  obtain ⟨m', h3, _⟩ := hr
  obtain ⟨a', h5, h6⟩ := h.newOrder_ok hp h3
  rw [h1] at h5
  cases h5
  refine ⟨s, m', h3, h2, ?_, h6⟩
  unfold emitted
  rw [h6.rep.pending, h.rep.pending]
  have : (a.rest p).events = a.events := by unfold RefMarket.rest; cases p.side <;> rfl
  rw [this, List.drop_length]

theorem posts_known : ∀ {ps : List (NewOrderParams C)} {m m' : Market C} {a : RefMarket C}, Known m a →
    (∀ p ∈ ps, (Instr.newOrder p).Ok) → Posts m ps m' → Calm a ps ∧ Known m' (ps.foldl RefMarket.rest a)
  | [], m, m', a, h, _, hp => by
    have : m' = m := hp
    subst this
    exact ⟨⟨by simp, by simp, by simp, fun side => by simpa [countOf] using h.inv.len side, by simpa using h.inv.seq⟩, h⟩
  | p :: ps, m, m', a, h, hok, hp => by
    obtain ⟨s, m₁, h1, h2, h3, h4⟩ := hp
    obtain ⟨a', h5, h6⟩ := h.newOrder_ok (hok p (by simp)) h1
    have hev : a'.events = a.events := by
      obtain ⟨es, hes⟩ := newOrder_events h5
      unfold emitted at h3
      rw [h6.rep.pending, h.rep.pending, hes, List.drop_left] at h3
      rw [hes, h3, List.append_nil]
    obtain ⟨c1, rfl⟩ := calm_of_quiet h.inv h5 h2 hev
    obtain ⟨c2, h7⟩ := posts_known h6 (fun q hq => hok q (by simp [hq])) h4
    exact ⟨((calm_cons h.inv.seq).1 ⟨c1, c2⟩).1, h7⟩

theorem posts_calm : ∀ {ps : List (NewOrderParams C)} {m : Market C} {a : RefMarket C}, Known m a →
    (∀ p ∈ ps, (Instr.newOrder p).Ok) → Calm a ps → ∃ m', Posts m ps m'
  | [], m, a, h, _, _ => ⟨m, rfl⟩
  | p :: ps, m, a, h, hok, hc => by
    have : a.seq + 1 < 2 ^ 64 := by have := hc.seq; simp only [List.length_cons] at this; omega
    obtain ⟨c1, c2⟩ := (calm_cons h.inv.seq).2 ⟨hc, this⟩
    obtain ⟨s, m₁, h1, h2, h3, h4⟩ := h.rest (hok p (by simp)) c1
    obtain ⟨m', h5⟩ := posts_calm h4 (fun q hq => hok q (by simp [hq])) c2
    exact ⟨m', s, m₁, h1, h2, h3, h5⟩

omit [CallbackInfo C] in
theorem rest_inv_orders {a : RefMarket C} (h : Known m a) (side : Side) (price : Nat) :
    (level ((a.rest p).orders side) price).map Order.face = (level (a.orders side) price).map Order.face ++
      if p.side = side ∧ p.limitPrice = price then [p.face] else [] := by
  rw [rest_orders]
  by_cases hs : p.side = side
  · subst hs
    rw [if_pos rfl, level_insert h.inv.seq (fun x hx => (h.inv.ok _ x hx).id) (by rw [rest_price h.inv.seq]) (h.inv.sorted _),
      List.map_append, rest_price h.inv.seq]
    simp only [true_and]
    split
    · simp only [List.map_cons, List.map_nil, Order.face, rest_price h.inv.seq, NewOrderParams.face]
    · rfl
  · simp [hs]

theorem posts_levels : ∀ {ps : List (NewOrderParams C)} {m m' : Market C}, Reachable m →
    (∀ p ∈ ps, (Instr.newOrder p).Ok) → Posts m ps m' → ∀ side price,
    (level (resting m' side) price).map Order.face =
      (level (resting m side) price).map Order.face ++ (newAt ps side price).map NewOrderParams.face
  | [], m, m', _, _, hp, side, price => by
    have : m' = m := hp
    simp [this, newAt]
  | p :: ps, m, m', hr, hok, hp, side, price => by
    obtain ⟨s, m₁, h1, h2, h3, h4⟩ := hp
    obtain ⟨a, h⟩ := hr.known
    have hok1 := hok p (by simp)
    obtain ⟨a', h5, h6⟩ := h.newOrder_ok hok1 h1
    have hev : a'.events = a.events := by
      obtain ⟨es, hes⟩ := newOrder_events h5
      unfold emitted at h3
      rw [h6.rep.pending, h.rep.pending, hes, List.drop_left] at h3
      rw [hes, h3, List.append_nil]
    obtain ⟨c1, rfl⟩ := calm_of_quiet h.inv h5 h2 hev
    have hr1 : Reachable m₁ := by
      have := hr.step hok1
      rwa [Market.step, exec_newOrder_ok h1] at this
    rw [posts_levels hr1 (fun q hq => hok q (by simp [hq])) h4, h6.rep.resting, rest_inv_orders h, h.rep.resting,
      List.append_assoc]
    congr 1
    unfold newAt
    rw [List.filter_cons]
    by_cases hs : p.side = side ∧ p.limitPrice = price
    · simp [hs]
    · rw [if_neg hs, if_neg (by simpa using hs)]; rfl

/-! ### The theorems -/

/-- C105. When new orders are posted one after the other and do nothing else: each can be posted by itself, none crosses a
resting order or another one of them, and there is room for all. The sequence in which they come does not matter. -/
theorem C105_when {c is} (h : ReachBy c is m) (hlen : is.length + ps.length < 2 ^ 64) (hok : ∀ p ∈ ps, (Instr.newOrder p).Ok) :
    (∃ m', Posts m ps m') ↔
      (∀ p ∈ ps, Postable c.minBase c.tick p) ∧
      (∀ p ∈ ps, ∀ o ∈ resting m p.side.opposite, p.side.accepts p.limitPrice o.price = false) ∧
      (∀ p ∈ ps, ∀ q ∈ ps, q.side = p.side.opposite → p.side.accepts p.limitPrice q.limitPrice = false) ∧
      ∀ side, (resting m side).length + ps.countP (fun p => p.side == side) ≤ c.cap side := by
  obtain ⟨hk, hs, hp⟩ := h.known
  have hcap : ∀ side, ((c.ref : RefMarket C).run is).cap side = c.cap side := by
    intro side; rw [hp.cap]; cases side <;> rfl
  have hmb : ((c.ref : RefMarket C).run is).minBase = c.minBase := hp.minBase
  have htick : ((c.ref : RefMarket C).run is).tick = c.tick := hp.tick
  constructor
  · rintro ⟨m', hm'⟩
    obtain ⟨hc, _⟩ := posts_known hk hok hm'
    refine ⟨fun p hp => ?_, fun p hp o ho => ?_, hc.each, fun side => ?_⟩
    · rw [← hmb, ← htick]; exact hc.postable p hp
    · rw [hk.rep.resting] at ho; exact hc.apart p hp o ho
    · rw [hk.rep.resting, ← hcap]; exact hc.room side
  · rintro ⟨h1, h2, h3, h4⟩
    refine posts_calm hk hok ⟨fun p hp => ?_, fun p hp o ho => ?_, h3, fun side => ?_, by omega⟩
    · rw [hmb, htick]; exact h1 p hp
    · rw [← hk.rep.resting] at ho; exact h2 p hp o ho
    · rw [← hk.rep.resting, hcap]; exact h4 side

/-- C105. Then at each price the new orders are behind those that were there, in the sequence in which they came. -/
theorem C105_levels (h : Reachable m) (hok : ∀ p ∈ ps, (Instr.newOrder p).Ok) (hp : Posts m ps m') (side : Side) (price : Nat) :
    (level (resting m' side) price).map Order.face =
      (level (resting m side) price).map Order.face ++ (newAt ps side price).map NewOrderParams.face :=
  posts_levels h hok hp side price

/-- C105. So if the same orders come in another sequence, which at each price is the same one, they are posted as well and do
nothing else, and the book shows the same. -/
theorem C105_sequence {c is} (h : ReachBy c is m) (hlen : is.length + ps.length < 2 ^ 64)
    (hok : ∀ p ∈ ps, (Instr.newOrder p).Ok) (hp : Posts m ps m') {qs : List (NewOrderParams C)} (hperm : qs.Perm ps)
    (hsame : ∀ side price, newAt qs side price = newAt ps side price) :
    ∃ m'', Posts m qs m'' ∧ ∀ side, (resting m'' side).map Order.face = (resting m' side).map Order.face := by
  have hok' : ∀ p ∈ qs, (Instr.newOrder p).Ok := fun p hq => hok p (hperm.mem_iff.1 hq)
  obtain ⟨h1, h2, h3, h4⟩ := (C105_when h hlen hok).1 ⟨m', hp⟩
  obtain ⟨m'', hq⟩ := (C105_when h (by rw [hperm.length_eq]; exact hlen) hok').2
    ⟨fun p hp => h1 p (hperm.mem_iff.1 hp), fun p hp => h2 p (hperm.mem_iff.1 hp),
      fun p hp q hq => h3 p (hperm.mem_iff.1 hp) q (hperm.mem_iff.1 hq), fun side => by rw [hperm.countP_eq]; exact h4 side⟩
  refine ⟨m'', hq, fun side => ?_⟩
  have hr : Reachable m := ⟨_, _, h⟩
  have sorted : ∀ {x : Market C} {l}, (∀ p ∈ l, (Instr.newOrder p).Ok) → Posts m l x →
      ((resting x side).map Order.face).Pairwise (fun a b => side.asGood a.1 b.1 = true) := by
    intro x l hl hx
    obtain ⟨a, ha⟩ := hr.known
    obtain ⟨_, hk⟩ := posts_known ha hl hx
    rw [List.pairwise_map, hk.rep.resting]
    exact (hk.inv.sorted side).imp (fun hb => before_price hb)
  refine eq_of_levels (side := side) (sorted hok' hq) (sorted hok hp) (fun price => ?_)
  rw [level_face, level_face, C105_levels hr hok' hq, C105_levels hr hok hp, hsame]

/-! ### Concrete cases -/

/-- The six orders of the demo, and the same ones with the bids first. -/
def sixOrders : List (NewOrderParams DemoCb) :=
  [demoOrder .ask 5 10 1, demoOrder .ask 6 11 2, demoOrder .ask 7 10 3, demoOrder .bid 8 9 4, demoOrder .bid 3 8 5,
   demoOrder .bid 4 9 6]
def sixOrders' : List (NewOrderParams DemoCb) :=
  [demoOrder .bid 3 8 5, demoOrder .bid 8 9 4, demoOrder .ask 6 11 2, demoOrder .bid 4 9 6, demoOrder .ask 5 10 1,
   demoOrder .ask 7 10 3]

theorem sixOrders_ok : ∀ p ∈ sixOrders, (Instr.newOrder p).Ok := by decide
theorem empty_reachBy : ReachBy demoCfg [] (demoCfg.market (⟨0, 0⟩ : DemoCb)) :=
  ⟨demo_valid, by simp, ⟨0, 0⟩, rfl⟩

theorem sixOrders_apart : ∀ p ∈ sixOrders, ∀ o ∈ resting (demoCfg.market (⟨0, 0⟩ : DemoCb)) p.side.opposite,
    p.side.accepts p.limitPrice o.price = false := by
  have : ∀ side, resting (demoCfg.market (⟨0, 0⟩ : DemoCb)) side = [] := by
    intro side; cases side <;> decide +kernel
  intro p _ o ho
  rw [this] at ho
  cases ho

theorem sixOrders_post : ∃ m', Posts (demoCfg.market ⟨0, 0⟩) sixOrders m' :=
  (C105_when empty_reachBy (by decide) sixOrders_ok).2
    ⟨by unfold Postable; decide +kernel, sixOrders_apart, by decide +kernel, fun side => by cases side <;> decide +kernel⟩

theorem sixOrders_same (side : Side) (price : Nat) : newAt sixOrders' side price = newAt sixOrders side price := by
  by_cases h : price ∈ [8 * 2 ^ 32, 9 * 2 ^ 32, 10 * 2 ^ 32, 11 * 2 ^ 32]
  · simp only [List.mem_cons, List.not_mem_nil, or_false] at h
    rcases h with rfl | rfl | rfl | rfl <;> cases side <;> decide +kernel
  · have none : ∀ l : List (NewOrderParams DemoCb), (∀ p ∈ l, p.limitPrice ∈ [8 * 2 ^ 32, 9 * 2 ^ 32, 10 * 2 ^ 32, 11 * 2 ^ 32]) →
        newAt l side price = [] := by
      intro l hl
      refine List.filter_eq_nil_iff.2 fun p hp hx => h ?_
      simp only [Bool.and_eq_true, beq_iff_eq] at hx
      rw [← hx.2]
      exact hl p hp
    rw [none _ (by decide +kernel), none _ (by decide +kernel)]

example : ∃ m' m'', Posts (demoCfg.market ⟨0, 0⟩) sixOrders m' ∧ Posts (demoCfg.market ⟨0, 0⟩) sixOrders' m'' ∧
    ∀ side, (resting m'' side).map Order.face = (resting m' side).map Order.face := by
  obtain ⟨m', h⟩ := sixOrders_post
  obtain ⟨m'', h', h''⟩ := C105_sequence empty_reachBy (by decide) sixOrders_ok h
    (qs := sixOrders') (by decide +kernel) sixOrders_same
  exact ⟨m', m'', h, h', h''⟩

/-- C105 needs the sequence at each price: of users 4 and 6, who both bid 9, whoever comes first is served first. -/
theorem C105_price_witness :
    let show_ (l : List (Instr DemoCb)) := (resting ((demoCfg.market ⟨0, 0⟩).run l) .bid).map (fun o => (o.qty, o.cb.user))
    show_ [.newOrder (demoOrder .bid 8 9 4), .newOrder (demoOrder .bid 4 9 6)] = [(8, 4), (4, 6)] ∧
    show_ [.newOrder (demoOrder .bid 4 9 6), .newOrder (demoOrder .bid 8 9 4)] = [(4, 6), (8, 4)] := by
  decide +kernel

end AOB
