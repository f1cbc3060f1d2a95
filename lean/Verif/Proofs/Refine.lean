import Verif.Spec.Engine
import Verif.Proofs.SlabApi
import Verif.Proofs.QueueInv
/-
The matching loop, posting and the instructions of the modelled code refine the reference engine.
-/
namespace AOB
variable {C : Type}

/-! ### Arithmetic -/

theorem priceFromKey_eq {k : Nat} (h : k < 2 ^ 128) : priceFromKey k = k / 2 ^ 64 := by
  unfold priceFromKey U64
  rw [Nat.shiftRight_eq_div_pow]
  omega

theorem mul_le_of_le_affordable {t q p : Nat} (hp : 0 < p) (h : t ≤ affordable q p) :
    t * p ≤ q * 2 ^ 32 := by
  unfold affordable at h
  exact (Nat.le_div_iff_mul_le hp).1 h

theorem worth_le {side : Side} {t q p : Nat} (h : t * p ≤ q * 2 ^ 32) : worth side t p ≤ q := by
  cases side with
  | bid => simp only [worth]; omega
  | ask => simp only [worth]; omega

theorem worth_le_affordable {side : Side} {t q p : Nat} (h : t ≤ affordable q p) :
    worth side t p ≤ q := by
  rcases Nat.eq_zero_or_pos p with rfl | hp
  · cases side <;> simp [worth]
  · exact worth_le (mul_le_of_le_affordable hp h)

theorem fp32Value_eq {side : Side} {t p : Nat} (h : worth side t p < 2 ^ 64) :
    fp32Value side t p = some (worth side t p) := by
  cases side with
  | bid => exact if_pos (show (t * p + (FP32 - 1)) / FP32 < U64 from h)
  | ask => exact if_pos (show t * p / FP32 < U64 from h)

theorem fp32MulFloor_eq {t p : Nat} (h : worth .ask t p < 2 ^ 64) :
    fp32MulFloor t p = some (worth .ask t p) := fp32Value_eq (side := .ask) h

theorem min_fp32Div {x q p : Nat} (hx : x < 2 ^ 64) (hp : 0 < p) :
    min x ((fp32Div q p).getD u64Max) = min x (affordable q p) := by
  unfold fp32Div affordable FP32 U64 u64Max
  rw [if_neg (by omega)]
  split
  · rfl
  · rename_i h
    simp only [Option.getD_none]
    have h2 : (2:Nat) ^ 32 = 4294967296 := rfl
    rw [h2]
    omega

theorem min_fp32Div_zero {x q : Nat} (hx : x < 2 ^ 64) :
    min x ((fp32Div q 0).getD u64Max) = x := by
  unfold fp32Div u64Max
  simp only [if_true, Option.getD_none]
  omega

theorem crosses_eq (side : Side) (l p : Nat) : crosses side l p = side.accepts l p := by
  cases side <;> simp [crosses, Side.accepts]

theorem sideOfId_eq (id : Nat) : getSideFromOrderId id = sideOfId id := by
  unfold getSideFromOrderId sideOfId ORDER_ID_SIDE_FLAG
  have h1 : (1 <<< 63 &&& id ≠ 0) ↔ id.testBit 63 = true := by
    rw [Nat.one_shiftLeft]
    constructor
    · intro h
      by_contra hb
      apply h
      apply Nat.eq_of_testBit_eq
      intro i
      rw [Nat.testBit_and, Nat.testBit_two_pow, Nat.zero_testBit]
      by_cases hi : 63 = i
      · subst hi
        rw [Bool.not_eq_true] at hb
        simp [hb]
      · simp [hi]
    · intro hb h
      have : (2 ^ 63 &&& id).testBit 63 = false := by rw [h]; simp
      rw [Nat.testBit_and, Nat.testBit_two_pow, hb] at this
      simp at this
  have h2 : id.testBit 63 = true ↔ ¬ id % 2 ^ 64 < 2 ^ 63 := by
    rw [Nat.testBit_eq_decide_div_mod_eq, decide_eq_true_iff]
    omega
  rw [h2] at h1
  by_cases h : id % 2 ^ 64 < 2 ^ 63
  · rw [if_neg (fun h' => h1.1 h' h), if_pos h]
  · rw [if_pos (h1.2 h), if_neg h]

/-! ### Best-first view of a side -/

/-- Key order from best-first order and back. -/
def prio (side : Side) (l : List (Order C)) : List (Order C) :=
  match side with
  | .bid => l.reverse
  | .ask => l

theorem prio_prio (side : Side) (l : List (Order C)) : prio side (prio side l) = l := by
  cases side <;> simp [prio]

theorem mem_prio {side : Side} {l : List (Order C)} {o : Order C} : o ∈ prio side l ↔ o ∈ l := by
  cases side <;> simp [prio]

theorem length_prio (side : Side) (l : List (Order C)) : (prio side l).length = l.length := by
  cases side <;> simp [prio]

/-- The slab holds the orders `l`, best first for `side`. -/
def PRep (side : Side) (s : Slab C) (l : List (Order C)) : Prop := SRep s (prio side l)

/-- The slab holds `o :: rest`, best first, and `h` is the handle of `o`. -/
def PAt (side : Side) (s : Slab C) (h : Nat) (o : Order C) (rest : List (Order C)) : Prop :=
  match side with
  | .bid => SAt s h rest.reverse o []
  | .ask => SAt s h [] o rest

theorem PAt.rep {side : Side} {s : Slab C} {h o rest} (hp : PAt side s h o rest) :
    PRep side s (o :: rest) := by
  cases side with
  | bid => have := SAt.rep hp; simpa [PRep, prio] using this
  | ask => have := SAt.rep hp; simpa [PRep, prio] using this

theorem PAt.leaf {side : Side} {s : Slab C} {h o rest} (hp : PAt side s h o rest) :
    s.leafNodes[h]? = some ⟨o.id, o.qty⟩ := by
  cases side with
  | bid => exact SAt.leaf hp
  | ask => exact SAt.leaf hp

theorem PAt.cb {side : Side} {s : Slab C} {h o rest} (hp : PAt side s h o rest) :
    s.callbackInfos[h]? = some o.cb := by
  cases side with
  | bid => exact SAt.cb hp
  | ask => exact SAt.cb hp

theorem PAt.setQty {side : Side} {s : Slab C} {h o rest} (hp : PAt side s h o rest) (q : Nat) :
    ∃ s', s.setBaseQuantity h q = .ok s' ∧ PAt side s' h { o with qty := q } rest ∧ SameSize s s' := by
  cases side with
  | bid => exact SAt.setQty hp q
  | ask => exact SAt.setQty hp q

theorem PRep.removeBest {side : Side} {s : Slab C} {o rest} (hp : PRep side s (o :: rest)) :
    ∃ s', s.removeByKey o.id = .ok (some (⟨o.id, o.qty⟩, o.cb), s') ∧ PRep side s' rest ∧
      SameSize s s' := by
  cases side with
  | bid =>
    have hp' : SRep s (rest.reverse ++ o :: []) := by simpa [PRep, prio] using hp
    obtain ⟨s', h1, h2, h3⟩ := hp'.remove
    exact ⟨s', h1, by simpa [PRep, prio] using h2, h3⟩
  | ask =>
    have hp' : SRep s ([] ++ o :: rest) := by simpa [PRep, prio] using hp
    obtain ⟨s', h1, h2, h3⟩ := hp'.remove
    exact ⟨s', h1, by simpa [PRep, prio] using h2, h3⟩

theorem findBbo_nil {side : Side} {b : OrderBook C} (hp : PRep side (b.getTree side) []) :
    b.findBbo side = .ok none := by
  cases side with
  | bid => exact SRep.findMax_nil hp
  | ask => exact SRep.findMin_nil hp

theorem findBbo_cons {side : Side} {b : OrderBook C} {o rest}
    (hp : PRep side (b.getTree side) (o :: rest)) :
    ∃ h, b.findBbo side = .ok (some h) ∧ PAt side (b.getTree side) h o rest := by
  cases side with
  | bid =>
    have hp' : SRep b.bids (rest.reverse ++ [o]) := by simpa [PRep, prio, OrderBook.getTree] using hp
    exact hp'.findMax_concat
  | ask => exact SRep.findMin_cons hp

theorem PRep.id_lt {side : Side} {s : Slab C} {l} (hp : PRep side s l) : ∀ o ∈ l, o.id < 2 ^ 128 :=
  fun o ho => SRep.id_lt hp o (mem_prio.2 ho)

/-! ### Sides of the book -/

@[simp] theorem getTree_setTree (b : OrderBook C) (side : Side) (s : Slab C) :
    (b.setTree side s).getTree side = s := by cases side <;> rfl

@[simp] theorem getTree_setTree_opp (b : OrderBook C) (side : Side) (s : Slab C) :
    (b.setTree side.opposite s).getTree side = b.getTree side := by cases side <;> rfl

@[simp] theorem getTree_opp_setTree (b : OrderBook C) (side : Side) (s : Slab C) :
    (b.setTree side s).getTree side.opposite = b.getTree side.opposite := by cases side <;> rfl

theorem opposite_ne (side : Side) : side.opposite ≠ side := by cases side <;> decide

@[simp] theorem opposite_opposite (side : Side) : side.opposite.opposite = side := by cases side <;> rfl

/-! ### The matching loop -/

/-- What one run of the loop preserves besides the opposite side and the events. -/
structure SameRest (side : Side) (st st' : MatchState C) : Prop where
  own : st'.book.getTree side = st.book.getTree side
  size : SameSize (st.book.getTree side.opposite) (st'.book.getTree side.opposite)
  evs : st'.queue.events.length = st.queue.events.length
  cbs : st'.queue.callbackInfos.length = st.queue.callbackInfos.length
  seq : st'.queue.header.seqNum = st.queue.header.seqNum

theorem SameRest.trans {side : Side} {a b c : MatchState C} (h : SameRest side a b)
    (h' : SameRest side b c) : SameRest side a c :=
  ⟨h'.own.trans h.own, h.size.trans h'.size, h'.evs.trans h.evs, h'.cbs.trans h.cbs,
   h'.seq.trans h.seq⟩

variable [CallbackInfo C]

theorem matchLoop_refines (p : NewOrderParams C) (minBase : Nat) :
    ∀ (ml : Nat) (st : MatchState C) (opp : List (Order C)) (evs : List (Event C)),
    PRep p.side.opposite (st.book.getTree p.side.opposite) opp →
    QRep st.queue evs → st.baseRem < 2 ^ 64 → st.quoteRem < 2 ^ 64 →
    (∀ o ∈ opp, o.qty < 2 ^ 64) →
    match refMatch p minBase ml (st.queue.events.length - evs.length) opp st.baseRem st.quoteRem
        st.crossed with
    | .error e => matchLoop p minBase ml st = .error (.ao e)
    | .ok r => ∃ st', matchLoop p minBase ml st = .ok st' ∧
        PRep p.side.opposite (st'.book.getTree p.side.opposite) r.opp ∧
        QRep st'.queue (evs ++ r.events) ∧ st'.baseRem = r.base ∧ st'.quoteRem = r.quote ∧
        st'.crossed = r.crossed ∧ SameRest p.side st st' := by
  intro ml
  induction ml with
  | zero =>
    intro st opp evs hp hq hb hqr hqty
    simp only [refMatch]
    exact ⟨st, rfl, hp, by simpa using hq, rfl, rfl, rfl, rfl, SameSize.refl _, rfl, rfl, rfl⟩
  | succ ml ih =>
    intro st opp evs hp hq hb hqr hqty
    cases opp with
    | nil =>
      simp only [refMatch]
      unfold matchLoop
      rw [findBbo_nil hp, ok_bind]
      exact ⟨_, rfl, hp, by simpa using hq, rfl, rfl, rfl, rfl, SameSize.refl _, rfl, rfl, rfl⟩
    | cons o rest =>
      obtain ⟨h, hbbo, hat⟩ := findBbo_cons hp
      have hid : o.id < 2 ^ 128 := hp.id_lt o (by simp)
      have hoq : o.qty < 2 ^ 64 := hqty o (by simp)
      have hqlen := hq.length_le
      have hprice : LeafNode.price ⟨o.id, o.qty⟩ = o.price := by
        unfold LeafNode.price Order.price
        exact priceFromKey_eq hid
      unfold matchLoop
      rw [hbbo, ok_bind]
      simp only
      rw [idx_eq hat.leaf, ok_bind]
      simp only [refMatch, hprice, crosses_eq]
      by_cases hx : (p.postOnly || !p.side.accepts p.limitPrice o.price) = true
      · rw [if_pos hx, if_pos hx]
        exact ⟨_, rfl, hp, by simpa using hq, rfl, rfl, rfl, rfl, SameSize.refl _, rfl, rfl, rfl⟩
      rw [if_neg hx, if_neg hx]
      have hacc : p.side.accepts p.limitPrice o.price = true := by
        cases hh : p.side.accepts p.limitPrice o.price
        · simp [hh] at hx
        · rfl
      rw [hacc]
      -- zero price: both sides stop
      rcases Nat.eq_zero_or_pos o.price with hp0 | hpp
      · have ht : (min (min o.qty st.baseRem) (affordable st.quoteRem o.price)) = 0 := by
          simp [hp0, affordable]
        rw [if_pos (Or.inl ht)]
        simp only [hp0]
        rw [min_fp32Div_zero (by omega)]
        by_cases hz : min o.qty st.baseRem = 0
        · rw [if_pos hz]
          exact ⟨_, rfl, hp, by simpa using hq, rfl, rfl, rfl, rfl, SameSize.refl _, rfl, rfl, rfl⟩
        · rw [if_neg hz]
          have hw : worth p.side (min o.qty st.baseRem) 0 = 0 := by
            cases p.side <;> simp [worth]
          have := fp32Value_eq (side := p.side) (t := min o.qty st.baseRem) (p := 0)
            (by rw [hw]; decide)
          rw [this, hw]
          simp only [Nat.zero_min, if_true]
          exact ⟨_, rfl, hp, by simpa using hq, rfl, rfl, rfl, rfl, SameSize.refl _, rfl, rfl, rfl⟩
      rw [min_fp32Div (by omega) hpp]
      generalize ht : min (min o.qty st.baseRem) (affordable st.quoteRem o.price) = t
      have hto : t ≤ o.qty := by omega
      have htb : t ≤ st.baseRem := by omega
      have hta : t ≤ affordable st.quoteRem o.price := by omega
      have hvq : worth p.side t o.price ≤ st.quoteRem := worth_le_affordable hta
      by_cases ht0 : t = 0
      · rw [if_pos ht0, if_pos (Or.inl ht0)]
        exact ⟨_, rfl, hp, by simpa using hq, rfl, rfl, rfl, rfl, SameSize.refl _, rfl, rfl, rfl⟩
      rw [if_neg ht0, fp32Value_eq (by omega)]
      simp only
      rw [Nat.min_eq_left hvq]
      generalize hv : worth p.side t o.price = v at hvq
      by_cases hv0 : v = 0
      · rw [if_pos hv0, if_pos (Or.inr hv0)]
        exact ⟨_, rfl, hp, by simpa using hq, rfl, rfl, rfl, rfl, SameSize.refl _, rfl, rfl, rfl⟩
      have hnz : ¬ (t = 0 ∨ v = 0) := by tauto
      rw [if_neg hv0, if_neg hnz]
      have hself : (if p.selfTradeBehavior ≠ .decrementTake then do
            let c ← idx (st.book.getTree p.side.opposite).callbackInfos h
            .ok (decide (CallbackInfo.asCallbackId p.callbackInfo = CallbackInfo.asCallbackId c))
          else .ok false : Res Bool) =
          .ok (decide (p.selfTradeBehavior ≠ .decrementTake ∧
            CallbackInfo.asCallbackId p.callbackInfo = CallbackInfo.asCallbackId o.cb)) := by
        by_cases hs : p.selfTradeBehavior ≠ .decrementTake
        · rw [if_pos hs, idx_eq hat.cb, ok_bind]
          congr 1
          exact decide_eq_decide.2 ⟨fun h => ⟨hs, h⟩, fun h => h.2⟩
        · rw [if_neg hs]
          congr 1
          symm
          exact decide_eq_false (fun h => hs h.1)
      rw [hself, ok_bind]
      by_cases hst : p.selfTradeBehavior ≠ .decrementTake ∧
          CallbackInfo.asCallbackId p.callbackInfo = CallbackInfo.asCallbackId o.cb
      · rw [decide_eq_true hst, if_pos rfl, if_pos hst]
        by_cases hab : p.selfTradeBehavior = .abortTransaction
        · rw [if_pos hab, if_pos hab]
        rw [if_neg hab, if_neg hab, idx_eq hat.cb, ok_bind]
        simp only [LeafNode.orderId]
        by_cases hroom : st.queue.events.length - evs.length = 0
        · rw [if_pos hroom, hq.push_err (by omega), err_bind]
        rw [if_neg hroom]
        obtain ⟨q', hpush, hq', hql, hqs, hqc⟩ := hq.push_out (by omega) p.side.opposite o.id o.qty o.cb
        rw [hpush, ok_bind]
        obtain ⟨s', hrm, hp', hss⟩ := hp.removeBest
        rw [hrm, ok_bind]
        simp only [unwrap, ok_bind]
        have := ih { st with book := st.book.setTree p.side.opposite s', queue := q', crossed := true }
          rest (evs ++ [.out p.side.opposite o.id o.qty o.cb]) (by simpa using hp') hq' hb hqr
          (fun x hx => hqty x (List.mem_cons_of_mem _ hx))
        simp only [List.length_append, List.length_singleton, hql] at this
        have hr : st.queue.events.length - (evs.length + 1) = st.queue.events.length - evs.length - 1 := by
          omega
        rw [hr] at this
        generalize hrec : refMatch p minBase ml (st.queue.events.length - evs.length - 1) rest
          st.baseRem st.quoteRem true = rec at this
        cases rec with
        | error e => simpa [Except.map] using this
        | ok r =>
          obtain ⟨st', g1, g2, g3, g4, g5, g6, g7⟩ := this
          refine ⟨st', g1, g2, by simpa [MatchOut.emit] using g3, g4, g5, g6, ?_⟩
          refine SameRest.trans ⟨?_, ?_, hql, hqc, hqs⟩ g7
          · simp
          · simpa using hss
      rw [decide_eq_false hst, if_neg hst]
      simp only [Bool.false_eq_true, if_false]
      rw [idx_eq hat.cb, ok_bind]
      simp only [LeafNode.orderId]
      by_cases hroom : st.queue.events.length - evs.length = 0
      · rw [hq.push_err (by omega), err_bind]
        rw [if_pos (show st.queue.events.length - evs.length ≤ 1 by omega), if_pos hroom, ite_self]
      obtain ⟨q', hpush, hq', hql, hqs, hqc⟩ := hq.push_fill (by omega) p.side o.id t v o.cb p.callbackInfo
      rw [hpush, ok_bind, subU_ok hto, ok_bind]
      obtain ⟨s1, hset, hat1, hss1⟩ := hat.setQty (o.qty - t)
      rw [hset, ok_bind, subU_ok htb, ok_bind, subU_ok hvq, ok_bind]
      by_cases hmin : o.qty - t < minBase
      · rw [if_pos hmin, if_pos hmin]
        obtain ⟨s2, hrm, hp2, hss2⟩ := (hat1.rep).removeBest
        simp only at hrm
        rw [hrm, ok_bind]
        simp only [unwrap, ok_bind]
        by_cases hroom1 : st.queue.events.length - evs.length ≤ 1
        · rw [if_pos hroom1, hq'.push_err (by simp [hql]; omega), err_bind]
        rw [if_neg hroom1]
        obtain ⟨q2, hpush2, hq2, hql2, hqs2, hqc2⟩ := hq'.push_out (by simp [hql]; omega)
          p.side.opposite o.id (o.qty - t) o.cb
        rw [hpush2, ok_bind]
        have := ih { book := st.book.setTree p.side.opposite s2, queue := q2, baseRem := st.baseRem - t,
                     quoteRem := st.quoteRem - v, crossed := true }
          rest (evs ++ [.fill p.side o.id t v o.cb p.callbackInfo] ++
            [.out p.side.opposite o.id (o.qty - t) o.cb]) (by simpa using hp2) hq2
          (by simp only; omega) (by simp only; omega)
          (fun x hx => hqty x (List.mem_cons_of_mem _ hx))
        simp only [List.length_append, List.length_singleton, hql2, hql] at this
        have hr : st.queue.events.length - (evs.length + 1 + 1) =
            st.queue.events.length - evs.length - 2 := by omega
        rw [hr] at this
        generalize hrec : refMatch p minBase ml (st.queue.events.length - evs.length - 2) rest
          (st.baseRem - t) (st.quoteRem - v) true = rec at this
        cases rec with
        | error e => simpa [Except.map] using this
        | ok r =>
          obtain ⟨st', g1, g2, g3, g4, g5, g6, g7⟩ := this
          refine ⟨st', g1, g2, by simpa [MatchOut.emit] using g3, g4, g5, g6, ?_⟩
          refine SameRest.trans ⟨?_, ?_, hql2.trans hql, hqc2.trans hqc, hqs2.trans hqs⟩ g7
          · simp
          · simpa using hss1.trans hss2
      · rw [if_neg hmin, if_neg hmin, if_neg hroom]
        have := ih { book := st.book.setTree p.side.opposite s1, queue := q', baseRem := st.baseRem - t,
                     quoteRem := st.quoteRem - v, crossed := true }
          ({ o with qty := o.qty - t } :: rest) (evs ++ [.fill p.side o.id t v o.cb p.callbackInfo])
          (by simpa using hat1.rep) hq'
          (by simp only; omega) (by simp only; omega)
          (by
            intro x hx
            rcases List.mem_cons.1 hx with rfl | hx
            · simp only; omega
            · exact hqty x (List.mem_cons_of_mem _ hx))
        simp only [List.length_append, List.length_singleton, hql] at this
        have hr : st.queue.events.length - (evs.length + 1) =
            st.queue.events.length - evs.length - 1 := by omega
        rw [hr] at this
        generalize hrec : refMatch p minBase ml (st.queue.events.length - evs.length - 1)
          ({ o with qty := o.qty - t } :: rest)
          (st.baseRem - t) (st.quoteRem - v) true = rec at this
        cases rec with
        | error e => simpa [Except.map] using this
        | ok r =>
          obtain ⟨st', g1, g2, g3, g4, g5, g6, g7⟩ := this
          refine ⟨st', g1, g2, by simpa [MatchOut.emit] using g3, g4, g5, g6, ?_⟩
          refine SameRest.trans ⟨?_, ?_, hql, hqc, hqs⟩ g7
          · simp
          · simpa using hss1

end AOB
