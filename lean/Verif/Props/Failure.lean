import Verif.Proofs.ResLemmas
import Verif.Props.Book
/-
How instructions can fail.
-/
namespace AOB
variable {C : Type} [CallbackInfo C] {m m' : Market C} {p : NewOrderParams C} {s : OrderSummary}

/-- Matching fails only for lack of room in the queue or a refused self trade. -/
theorem refMatch_error {minBase : Nat} : ∀ (ml room : Nat) (opp : List (Order C)) (b q : Nat) (x : Bool) (e : AoError),
    refMatch p minBase ml room opp b q x = .error e →
    (e = .eventQueueFull ∧ room < 2 * ml) ∨ (e = .wouldSelfTrade ∧ p.selfTradeBehavior = .abortTransaction) := by
  intro ml
  induction ml with
  | zero => intro room opp b q x e h; cases h
  | succ ml ih =>
    intro room opp b q x e h
    have emap : ∀ {y : Except AoError (MatchOut C)} {es}, y.map (MatchOut.emit es) = .error e → y = .error e := by
      intro y es h
      cases y with
      | error e' => cases h; rfl
      | ok y => cases h
    cases opp with
    | nil => cases h
    | cons o rest =>
      unfold refMatch at h
      split at h
      · cases h
      · simp only at h
        split at h
        · cases h
        · split at h
          · rename_i hst
            split at h
            · cases h; exact Or.inr ⟨rfl, by assumption⟩
            · split at h
              · cases h; left; exact ⟨rfl, by omega⟩
              · rcases ih _ _ _ _ _ _ (emap h) with h | h
                · left; exact ⟨h.1, by omega⟩
                · exact Or.inr h
          · split at h
            · split at h
              · cases h; left; exact ⟨rfl, by omega⟩
              · rcases ih _ _ _ _ _ _ (emap h) with h | h
                · left; exact ⟨h.1, by omega⟩
                · exact Or.inr h
            · split at h
              · cases h; left; exact ⟨rfl, by omega⟩
              · rcases ih _ _ _ _ _ _ (emap h) with h | h
                · left; exact ⟨h.1, by omega⟩
                · exact Or.inr h

theorem refMatch_ok_events {minBase : Nat} {ml room : Nat} {opp : List (Order C)} {b q : Nat} {r}
    (h : refMatch p minBase ml room opp b q true = .ok r) : r.events.length ≤ 2 * ml := by
  obtain ⟨n, h1, h2, _⟩ := refMatch_ok h (fun _ => rfl)
  have := h2.events_length
  omega

omit [CallbackInfo C] in
theorem refPost_error {side : Side} {cap room : Nat} {own : List (Order C)} {o : Order C} {e}
    (h : refPost side cap room own o = .error e) : e = .eventQueueFull ∧ room = 0 := by
  unfold refPost at h
  split at h
  · cases h
  · split at h
    · cases h
    · split at h
      · cases h
      · split at h
        · cases h; exact ⟨rfl, by assumption⟩
        · cases h

theorem ref_newOrder_error {a : RefMarket C} (ht : 0 < a.tick) {e : Err} (h : a.newOrder p = .error e) :
    (e = .ao .invalidLimitPrice ∧ (p.limitPrice % a.tick ≠ 0 ∨ (p.postAllowed ∧ p.limitPrice < a.tick))) ∨
    (e = .ao .eventQueueFull ∧ a.capEvents - a.events.length < 2 * p.matchLimit + 1) ∨
    (e = .ao .wouldSelfTrade ∧ p.selfTradeBehavior = .abortTransaction) ∨
    (e = .panic ∧ 2 ^ 64 ≤ a.seq + 1 ∧ p.postAllowed = true) := by
  unfold RefMarket.newOrder at h
  rw [if_neg (by omega)] at h
  split at h
  · cases h; exact Or.inl ⟨rfl, by assumption⟩
  · cases hr : refMatch p a.minBase p.matchLimit (a.capEvents - a.events.length) (a.orders p.side.opposite)
        p.maxBaseQty p.maxQuoteQty true with
    | error e' =>
      rw [hr] at h
      simp only at h
      cases h
      rcases refMatch_error _ _ _ _ _ _ _ hr with ⟨rfl, h⟩ | ⟨rfl, h⟩
      · exact Or.inr (Or.inl ⟨rfl, by omega⟩)
      · exact Or.inr (Or.inr (Or.inl ⟨rfl, h⟩))
    | ok r =>
      have hl := refMatch_ok_events hr
      rw [hr] at h
      simp only at h
      split at h
      · cases h
      · rename_i hpost
        split at h
        · cases h
          refine Or.inr (Or.inr (Or.inr ⟨rfl, by assumption, ?_⟩))
          simp only [Bool.or_eq_true, not_or, Bool.not_eq_true, Bool.not_eq_eq_eq_not, Bool.not_true] at hpost
          simpa using hpost.1.2
        · cases hpo : refPost p.side (a.cap p.side) (a.capEvents - (a.events ++ r.events).length)
              ((a.setOrders p.side.opposite r.opp).orders p.side)
              ⟨mkOrderId p.side p.limitPrice a.seq, min (affordable r.quote p.limitPrice) r.base, p.callbackInfo⟩ with
          | error e' =>
            have hpo' : refPost p.side (a.cap p.side) (a.capEvents - (a.events ++ r.events).length)
              (RefMarket.orders { a.setOrders p.side.opposite r.opp with events := a.events ++ r.events } p.side)
              ⟨mkOrderId p.side p.limitPrice a.seq, min (affordable r.quote p.limitPrice) r.base, p.callbackInfo⟩ =
                .error e' := by
              rw [← hpo]; cases p.side <;> rfl
            rw [hpo'] at h
            cases h
            obtain ⟨rfl, h0⟩ := refPost_error hpo
            rw [List.length_append] at h0
            exact Or.inr (Or.inl ⟨rfl, by omega⟩)
          | ok po =>
            have hpo' : refPost p.side (a.cap p.side) (a.capEvents - (a.events ++ r.events).length)
              (RefMarket.orders { a.setOrders p.side.opposite r.opp with events := a.events ++ r.events } p.side)
              ⟨mkOrderId p.side p.limitPrice a.seq, min (affordable r.quote p.limitPrice) r.base, p.callbackInfo⟩ =
                .ok po := by
              rw [← hpo]; cases p.side <;> rfl
            rw [hpo'] at h
            simp only at h
            split at h <;> cases h

/-- What can make `new_order` fail: a price off the tick grid, too little room in the event queue, a self trade
under `AbortTransaction`, or the sequence number having reached the end of 64 bits. -/
theorem newOrder_error {c is} (h : ReachBy c is m) (hp : (Instr.newOrder p).Ok) {e : Err}
    (he : m.newOrder p = .error e) :
    (e = .ao .invalidLimitPrice ∧ (¬ c.tick ∣ p.limitPrice ∨ (p.postAllowed = true ∧ p.limitPrice < c.tick))) ∨
    (e = .ao .eventQueueFull ∧ c.capEvents - (pending m).length < 2 * p.matchLimit + 1) ∨
    (e = .ao .wouldSelfTrade ∧ p.selfTradeBehavior = .abortTransaction) ∨
    (e = .panic ∧ 2 ^ 64 ≤ is.length + 1 ∧ p.postAllowed = true) := by
  obtain ⟨ha, hseq, hpar⟩ := h.known
  have hr := newOrder_refines ha.rep ha.inv p hp
  cases hx : RefMarket.newOrder ((c.ref : RefMarket C).run is) p with
  | ok x =>
    rw [hx] at hr
    obtain ⟨m1, h1, _⟩ := hr
    rw [h1] at he; cases he
  | error e' =>
    rw [hx] at hr
    simp only at hr
    rw [hr] at he
    cases he
    rw [ha.rep.pending, show c.tick = _ from hpar.tick.symm, show c.capEvents = _ from hpar.capEvents.symm]
    rcases ref_newOrder_error ha.tick hx with h | h | h | h
    · refine Or.inl ⟨h.1, ?_⟩
      rw [Nat.dvd_iff_mod_eq_zero]
      exact h.2
    · exact Or.inr (Or.inl h)
    · exact Or.inr (Or.inr (Or.inl h))
    · exact Or.inr (Or.inr (Or.inr ⟨h.1, by omega, h.2.2⟩))

/-- C18: `new_order` terminates and never panics, as long as the market has seen fewer than `2^64 - 1`
instructions. -/
theorem C18_never_panics {c is} (h : ReachBy c is m) (hlen : is.length + 1 < 2 ^ 64) (hp : (Instr.newOrder p).Ok) :
    m.newOrder p ≠ .error .panic ∧ m.newOrder p ≠ .error .diverge := by
  constructor <;> intro he <;> rcases newOrder_error h hp he with h | h | h | h
  all_goals first | (have := h.1; cases this; done) | (have := h.2.1; omega)

/-- C19: with a limit price that is a multiple of the tick size (and at least one tick if it may be posted),
`new_order` fails only with `EventQueueFull` or, under `AbortTransaction`, `WouldSelfTrade`. -/
theorem C19_only_failures {c is} (h : ReachBy c is m) (hlen : is.length + 1 < 2 ^ 64) (hp : (Instr.newOrder p).Ok)
    (ht : c.tick ∣ p.limitPrice) (ht' : p.postAllowed = true → c.tick ≤ p.limitPrice) {e : Err}
    (he : m.newOrder p = .error e) :
    e = .ao .eventQueueFull ∨ (e = .ao .wouldSelfTrade ∧ p.selfTradeBehavior = .abortTransaction) := by
  rcases newOrder_error h hp he with h | h | h | h
  · rcases h.2 with h | h
    · exact absurd ht h
    · have := ht' h.1; omega
  · exact Or.inl h.1
  · exact Or.inr h
  · omega

/-- C19: a price off the tick grid is always refused, before anything else is looked at. -/
theorem C19_bad_price {c is} (h : ReachBy c is m) (p : NewOrderParams C)
    (hbad : ¬ c.tick ∣ p.limitPrice ∨ (p.postAllowed = true ∧ p.limitPrice < c.tick)) :
    m.newOrder p = .error (.ao .invalidLimitPrice) := by
  obtain ⟨h1, h2, _⟩ := C12_parameters h
  have ht : c.tick ≠ 0 := Nat.pos_iff_ne_zero.1 h.1.tick
  unfold Market.newOrder remU
  rw [h2, if_neg ht, ok_bind]
  by_cases hd : c.tick ∣ p.limitPrice
  · rw [if_neg (by rw [Nat.dvd_iff_mod_eq_zero] at hd; simpa using hd)]
    rcases hbad with hbad | ⟨hb1, hb2⟩
    · exact absurd hd hbad
    · rw [if_pos (by simp [hb1, hb2])]
  · rw [if_pos (by rw [Nat.dvd_iff_mod_eq_zero] at hd; exact hd)]

/-- C19: with `2 * match_limit + 1` free event slots and no `AbortTransaction`, `new_order` succeeds. -/
theorem C19_success {c is} (h : ReachBy c is m) (hlen : is.length + 1 < 2 ^ 64) (hp : (Instr.newOrder p).Ok)
    (ht : c.tick ∣ p.limitPrice) (ht' : p.postAllowed = true → c.tick ≤ p.limitPrice)
    (hroom : (pending m).length + 2 * p.matchLimit + 1 ≤ c.capEvents)
    (hab : p.selfTradeBehavior ≠ .abortTransaction) : ∃ s m', m.newOrder p = .ok (s, m') := by
  cases he : m.newOrder p with
  | ok x => exact ⟨x.1, x.2, rfl⟩
  | error e =>
    rcases newOrder_error h hp he with h | h | h | h
    · rcases h.2 with h | h
      · exact absurd ht h
      · have := ht' h.1; omega
    · omega
    · exact absurd h.2 hab
    · omega

/-- C20: after a failed instruction everything is as before. That the writes of a failed instruction are undone is
the Solana runtime's doing, modelled in `Market.step`. -/
theorem C20_failed_step {i : Instr C} {e : Err} (h : m.exec i = .error e) :
    (∀ side, resting (m.step i) side = resting m side) ∧ pending (m.step i) = pending m ∧
    (m.step i).queue.header.seqNum = m.queue.header.seqNum := by
  unfold Market.step
  rw [h]
  exact ⟨fun _ => rfl, rfl, rfl⟩

omit [CallbackInfo C] in
/-- C20: a removal that finds nothing writes nothing, so a `cancel_order` answered with `OrderNotFound` has not
touched the slab even before the runtime undoes anything. -/
theorem C20_no_write {s s' : Slab C} {k : Nat} (h : s.removeByKey k = .ok (none, s')) : s' = s := by
  unfold Slab.removeByKey at h
  split at h
  · cases h; rfl
  · simp only at h
    obtain ⟨start, _, h⟩ := bind_ok h
    cases h1 : start.1 with
    | some l =>
      rw [h1] at h
      obtain ⟨_, _, h⟩ := bind_ok h
      obtain ⟨_, _, h⟩ := bind_ok h
      cases h
    | none =>
      rw [h1] at h
      obtain ⟨stop, _, h⟩ := bind_ok h
      cases stop with
      | none => cases h; rfl
      | some r =>
        obtain ⟨_, _, h⟩ := bind_ok h
        obtain ⟨_, _, h⟩ := bind_ok h
        obtain ⟨_, _, h⟩ := bind_ok h
        obtain ⟨_, _, h⟩ := bind_ok h
        obtain ⟨_, _, h⟩ := bind_ok h
        obtain ⟨_, _, h⟩ := bind_ok h
        obtain ⟨_, _, h⟩ := bind_ok h
        cases h

/-! ### The hypotheses are met -/

example := C20_no_write (s := demo.book.asks) (s' := demo.book.asks) (k := 5) (by decide +kernel)

/-- The queue of this market has room for one event only; the order fills two orders. -/
def demoTight : Market DemoCb := (({ demoCfg with capEvents := 1 } : Config).market ⟨0, 0⟩).run demoHist

example : demoTight.newOrder demoTake = .error (.ao .eventQueueFull) := by decide +kernel
example : demo.newOrder { demoTake with selfTradeBehavior := .abortTransaction } = .error (.ao .wouldSelfTrade) := by
  decide +kernel
example : demo.newOrder { demoTake with limitPrice := 2 ^ 31 + 1 } = .error (.ao .invalidLimitPrice) := by
  decide +kernel
example : ∃ s m', demo.newOrder { demoTake with matchLimit := 5 } = .ok (s, m') :=
  C19_success demo_reachBy (by decide) (by decide +kernel) (by decide +kernel) (by decide +kernel)
    (by decide +kernel) (by decide)
example : demo.newOrder demoTake ≠ .error .panic := (C18_never_panics demo_reachBy (by decide) demoTake_ok).1

theorem demoTight_reachBy : ReachBy { demoCfg with capEvents := 1 } demoHist demoTight :=
  ⟨by refine ⟨?_, ?_, ?_, ?_, ?_⟩ <;> decide, by decide +kernel, ⟨0, 0⟩, rfl⟩

/-- `C19_only_failures`: the two failures above are of the two kinds. -/
example := C19_only_failures demoTight_reachBy (by decide) demoTake_ok (by decide +kernel) (by decide +kernel)
  (show demoTight.newOrder demoTake = .error (.ao .eventQueueFull) by decide +kernel)
example := C19_only_failures demo_reachBy (by decide) (p := { demoTake with selfTradeBehavior := .abortTransaction })
  (by decide +kernel) (by decide +kernel) (by decide +kernel) (e := .ao .wouldSelfTrade) (by decide +kernel)
/-- `C19_bad_price`: not a multiple of the tick size. -/
example := C19_bad_price demo_reachBy { demoTake with limitPrice := 2 ^ 31 + 1 } (.inl (by decide +kernel))
/-- `C20_failed_step`: the order that does not fit in the queue, which has traded before it fails. -/
example := C20_failed_step (m := demoTight) (i := .newOrder demoTake) (e := .ao .eventQueueFull) (by decide +kernel)

end AOB
