import Verif.Proofs.RefineMarket
/-
The matching of the reference engine as a relation, and the shape of the result of a new order.
-/
namespace AOB
variable {C : Type} [CallbackInfo C]

/-- The taker would trade with itself against `o`, and asked to be protected. -/
def SelfTrade (p : NewOrderParams C) (o : Order C) : Prop :=
  p.selfTradeBehavior ≠ .decrementTake ∧
    CallbackInfo.asCallbackId p.callbackInfo = CallbackInfo.asCallbackId o.cb

/-- The quantity of the next trade against `o`. -/
def tradeQty (o : Order C) (base quote : Nat) : Nat := min (min o.qty base) (affordable quote o.price)

/-- The next step touches `o`. -/
structure Touch (p : NewOrderParams C) (o : Order C) (base quote : Nat) : Prop where
  noPostOnly : p.postOnly = false
  accepts : p.side.accepts p.limitPrice o.price = true
  qty : tradeQty o base quote ≠ 0
  value : worth p.side (tradeQty o base quote) o.price ≠ 0

/-- `n` matching steps, emitting the events. -/
inductive Steps (p : NewOrderParams C) (minBase : Nat) :
    Nat → List (Order C) → Nat → Nat → List (Event C) → List (Order C) → Nat → Nat → Prop
  | refl {opp b q} : Steps p minBase 0 opp b q [] opp b q
  | selfOut {n o rest b q es opp' b' q'} (ht : Touch p o b q) (hs : SelfTrade p o)
      (hab : p.selfTradeBehavior = .cancelProvide)
      (h : Steps p minBase n rest b q es opp' b' q') :
      Steps p minBase (n + 1) (o :: rest) b q (.out p.side.opposite o.id o.qty o.cb :: es) opp' b' q'
  | fillOut {n o rest b q es opp' b' q'} (ht : Touch p o b q) (hs : ¬ SelfTrade p o)
      (hm : o.qty - tradeQty o b q < minBase)
      (h : Steps p minBase n rest (b - tradeQty o b q)
        (q - worth p.side (tradeQty o b q) o.price) es opp' b' q') :
      Steps p minBase (n + 1) (o :: rest) b q
        (.fill p.side o.id (tradeQty o b q) (worth p.side (tradeQty o b q) o.price) o.cb p.callbackInfo ::
         .out p.side.opposite o.id (o.qty - tradeQty o b q) o.cb :: es) opp' b' q'
  | fillKeep {n o rest b q es opp' b' q'} (ht : Touch p o b q) (hs : ¬ SelfTrade p o)
      (hm : minBase ≤ o.qty - tradeQty o b q)
      (h : Steps p minBase n ({ o with qty := o.qty - tradeQty o b q } :: rest) (b - tradeQty o b q)
        (q - worth p.side (tradeQty o b q) o.price) es opp' b' q') :
      Steps p minBase (n + 1) (o :: rest) b q
        (.fill p.side o.id (tradeQty o b q) (worth p.side (tradeQty o b q) o.price) o.cb p.callbackInfo ::
         es) opp' b' q'

/-- Why matching stopped, with `left` steps still allowed. -/
def StopAt (p : NewOrderParams C) (left : Nat) (opp : List (Order C)) (b q : Nat) (crossed : Bool) : Prop :=
  (left = 0 ∧ crossed = true) ∨
  (left ≠ 0 ∧ match opp with
    | [] => crossed = false
    | o :: _ => crossed = p.side.accepts p.limitPrice o.price ∧ ¬ Touch p o b q)

omit [CallbackInfo C] in
theorem tradeQty_le {o : Order C} {b q : Nat} :
    tradeQty o b q ≤ o.qty ∧ tradeQty o b q ≤ b ∧ tradeQty o b q ≤ affordable q o.price := by
  unfold tradeQty; omega

omit [CallbackInfo C] in
theorem worth_trade_le {p : NewOrderParams C} {o : Order C} {b q : Nat} :
    worth p.side (tradeQty o b q) o.price ≤ q := worth_le_affordable tradeQty_le.2.2

theorem refMatch_ok {p : NewOrderParams C} {minBase : Nat} :
    ∀ {ml room opp b q x r}, refMatch p minBase ml room opp b q x = .ok r → (ml = 0 → x = true) →
    ∃ n ≤ ml, Steps p minBase n opp b q r.events r.opp r.base r.quote ∧ r.events.length ≤ room ∧
      StopAt p (ml - n) r.opp r.base r.quote r.crossed := by
  intro ml
  induction ml with
  | zero =>
    intro room opp b q x r h hx
    simp only [refMatch, Except.ok.injEq] at h
    subst h
    exact ⟨0, le_refl _, .refl, by simp, Or.inl ⟨rfl, hx rfl⟩⟩
  | succ ml ih =>
    intro room opp b q x r h hx
    cases opp with
    | nil =>
      simp only [refMatch, Except.ok.injEq] at h
      subst h
      exact ⟨0, by omega, .refl, by simp, Or.inr ⟨by omega, rfl⟩⟩
    | cons o rest =>
      simp only [refMatch] at h
      have emit : ∀ {es : List (Event C)} {x : Except AoError (MatchOut C)} {r}, x.map (MatchOut.emit es) = .ok r →
          ∃ r', x = .ok r' ∧ r = r'.emit es := by
        intro es x r h
        cases x with
        | error e => cases h
        | ok r' => exact ⟨r', rfl, by cases h; rfl⟩
      split at h
      · rename_i hc
        cases h
        refine ⟨0, by omega, .refl, by simp, Or.inr ⟨by omega, rfl, ?_⟩⟩
        rintro ⟨h1, h2, _, _⟩
        simp [h1, h2] at hc
      rename_i hc
      rw [Bool.not_eq_true, Bool.or_eq_false_iff] at hc
      have hacc : p.side.accepts p.limitPrice o.price = true := by simpa using hc.2
      split at h
      · rename_i hz
        cases h
        refine ⟨0, by omega, .refl, by simp, Or.inr ⟨by omega, hacc.symm, ?_⟩⟩
        rintro ⟨_, _, h3, h4⟩
        rcases hz with hz | hz
        · exact h3 hz
        · exact h4 hz
      rename_i hz
      have ht : Touch p o b q := ⟨hc.1, hacc, fun h => hz (Or.inl h), fun h => hz (Or.inr h)⟩
      split at h
      · rename_i hs
        split at h
        · cases h
        rename_i hab
        split at h
        · cases h
        obtain ⟨r', h1, rfl⟩ := emit h
        obtain ⟨n, hn, g1, g2, g3⟩ := ih h1 (fun _ => rfl)
        refine ⟨n + 1, by omega, .selfOut ht hs ?_ g1, ?_, ?_⟩
        · have := hs.1
          cases hb : p.selfTradeBehavior
          · exact absurd hb this
          · rfl
          · exact absurd hb hab
        · simp only [MatchOut.emit, List.length_append, List.length_singleton]; omega
        · rw [Nat.add_sub_add_right]; exact g3
      rename_i hs
      split at h
      · rename_i hm
        split at h
        · cases h
        obtain ⟨r', h1, rfl⟩ := emit h
        obtain ⟨n, hn, g1, g2, g3⟩ := ih h1 (fun _ => rfl)
        refine ⟨n + 1, by omega, .fillOut ht hs hm g1, ?_, ?_⟩
        · simp only [MatchOut.emit, List.length_append, List.length_cons, List.length_nil]; omega
        · rw [Nat.add_sub_add_right]; exact g3
      · rename_i hm
        split at h
        · cases h
        obtain ⟨r', h1, rfl⟩ := emit h
        obtain ⟨n, hn, g1, g2, g3⟩ := ih h1 (fun _ => rfl)
        refine ⟨n + 1, by omega, .fillKeep ht hs (Nat.not_lt.1 hm) g1, ?_, ?_⟩
        · simp only [MatchOut.emit, List.length_append, List.length_singleton]; omega
        · rw [Nat.add_sub_add_right]; exact g3

/-- Errors of matching. -/
theorem refMatch_err {p : NewOrderParams C} {minBase : Nat} :
    ∀ {ml room opp b q x e}, refMatch p minBase ml room opp b q x = .error e →
    e = .eventQueueFull ∨ (e = .wouldSelfTrade ∧ p.selfTradeBehavior = .abortTransaction) := by
  intro ml
  induction ml with
  | zero => intro room opp b q x e h; simp [refMatch] at h
  | succ ml ih =>
    intro room opp b q x e h
    cases opp with
    | nil => simp [refMatch] at h
    | cons o rest =>
      simp only [refMatch] at h
      have emit : ∀ {es : List (Event C)} {x : Except AoError (MatchOut C)} {r},
          x.map (MatchOut.emit es) = .error r → x = .error r := by
        intro es x r h
        cases x with
        | error e => cases h; rfl
        | ok r' => cases h
      split at h
      · cases h
      split at h
      · cases h
      split at h
      · split at h
        · rename_i hab
          cases h; exact Or.inr ⟨rfl, hab⟩
        split at h
        · cases h; exact Or.inl rfl
        exact ih (emit h)
      split at h
      · split at h
        · cases h; exact Or.inl rfl
        exact ih (emit h)
      · split at h
        · cases h; exact Or.inl rfl
        exact ih (emit h)

/-! ### Facts about `Steps` -/

section
variable {p : NewOrderParams C} {minBase : Nat}

theorem Steps.le {n opp b q es opp' b' q'} (h : Steps p minBase n opp b q es opp' b' q') :
    b' ≤ b ∧ q' ≤ q := by
  induction h with
  | refl => simp
  | selfOut _ _ _ _ ih => exact ih
  | fillOut _ _ _ _ ih => omega
  | fillKeep _ _ _ _ ih => omega

/-- Length of a run. -/
theorem Steps.length {n opp b q es opp' b' q'} (h : Steps p minBase n opp b q es opp' b' q') :
    opp'.length ≤ opp.length := by
  induction h with
  | refl => simp
  | selfOut _ _ _ _ ih => simp only [List.length_cons]; omega
  | fillOut _ _ _ _ ih => simp only [List.length_cons]; omega
  | fillKeep _ _ _ _ ih => simpa using ih

/-- The orders left are the old ones from some point on, the first one perhaps smaller. -/
theorem Steps.shape {n opp b q es opp' b' q'} (h : Steps p minBase n opp b q es opp' b' q') :
    ∃ gone, (opp = gone ++ opp') ∨
      (∃ o k rest, opp = gone ++ o :: rest ∧ opp' = { o with qty := o.qty - k } :: rest ∧
        minBase ≤ o.qty - k) := by
  induction h with
  | refl => exact ⟨[], Or.inl rfl⟩
  | @selfOut n o rest b q es opp' b' q' _ _ _ _ ih =>
    obtain ⟨gone, h | ⟨o', k, r, h1, h2, h3⟩⟩ := ih
    · exact ⟨o :: gone, Or.inl (by simp [h])⟩
    · exact ⟨o :: gone, Or.inr ⟨o', k, r, by simp [h1], h2, h3⟩⟩
  | @fillOut n o rest b q es opp' b' q' _ _ _ _ ih =>
    obtain ⟨gone, h | ⟨o', k, r, h1, h2, h3⟩⟩ := ih
    · exact ⟨o :: gone, Or.inl (by simp [h])⟩
    · exact ⟨o :: gone, Or.inr ⟨o', k, r, by simp [h1], h2, h3⟩⟩
  | @fillKeep n o rest b q es opp' b' q' _ _ hm _ ih =>
    obtain ⟨gone, h | ⟨o', k, r, h1, h2, h3⟩⟩ := ih
    · cases gone with
      | nil =>
        refine ⟨[], Or.inr ⟨o, tradeQty o b q, rest, rfl, ?_, hm⟩⟩
        simpa using h.symm
      | cons g gone =>
        simp only [List.cons_append, List.cons.injEq] at h
        exact ⟨o :: gone, Or.inl (by simp [h.2])⟩
    · cases gone with
      | nil =>
        simp only [List.nil_append, List.cons.injEq] at h1
        obtain ⟨rfl, rfl⟩ := h1
        refine ⟨[], Or.inr ⟨o, tradeQty o b q + k, rest, rfl, ?_, ?_⟩⟩
        · rw [h2, Nat.sub_sub]
        · simp only at h3; omega
      | cons g gone =>
        simp only [List.cons_append, List.cons.injEq] at h1
        exact ⟨o :: gone, Or.inr ⟨o', k, r, by simp [h1.2], h2, h3⟩⟩

end

/-- A predicate that survives reducing the quantity of an order (not below the minimum) survives
matching. -/
theorem Steps.forall {p : NewOrderParams C} {minBase n opp b q es opp' b' q'}
    (h : Steps p minBase n opp b q es opp' b' q') {P : Order C → Prop}
    (hP : ∀ o k, P o → minBase ≤ o.qty - k → P { o with qty := o.qty - k }) (h0 : ∀ o ∈ opp, P o) :
    ∀ o ∈ opp', P o := by
  obtain ⟨gone, h | ⟨o', k, r, h1, h2, h3⟩⟩ := h.shape
  · intro o ho
    exact h0 o (by rw [h]; exact List.mem_append_right _ ho)
  · intro o ho
    rw [h2] at ho
    rcases List.mem_cons.1 ho with rfl | ho
    · exact hP o' k (h0 o' (by rw [h1]; simp)) h3
    · exact h0 o (by rw [h1]; simp [ho])

theorem Steps.sorted {p : NewOrderParams C} {minBase n opp b q es opp' b' q'}
    (h : Steps p minBase n opp b q es opp' b' q') {side : Side} (h0 : opp.Pairwise side.before) :
    opp'.Pairwise side.before := by
  obtain ⟨gone, h | ⟨o', k, r, h1, h2, h3⟩⟩ := h.shape
  · rw [h, List.pairwise_append] at h0
    exact h0.2.1
  · rw [h1, List.pairwise_append, List.pairwise_cons] at h0
    rw [h2, List.pairwise_cons]
    refine ⟨fun x hx => ?_, h0.2.1.2⟩
    have := h0.2.1.1 x hx
    cases side <;> exact this

/-- What an accepted new order did. -/
structure NewOk (a : RefMarket C) (p : NewOrderParams C) (s : OrderSummary) (a' : RefMarket C)
    (n : Nat) (r : MatchOut C) : Prop where
  tick : 0 < a.tick ∧ p.limitPrice % a.tick = 0 ∧ (p.postAllowed = true → a.tick ≤ p.limitPrice)
  steps : Steps p a.minBase n (a.orders p.side.opposite) p.maxBaseQty p.maxQuoteQty r.events r.opp
    r.base r.quote
  limit : n ≤ p.matchLimit
  room : r.events.length ≤ a.capEvents - a.events.length
  stop : StopAt p (p.matchLimit - n) r.opp r.base r.quote r.crossed
  params : a'.minBase = a.minBase ∧ a'.tick = a.tick ∧ a'.capEvents = a.capEvents ∧
    ∀ side, a'.cap side = a.cap side
  opp : a'.orders p.side.opposite = r.opp
  run : refMatch p a.minBase p.matchLimit (a.capEvents - a.events.length) (a.orders p.side.opposite)
    p.maxBaseQty p.maxQuoteQty true = .ok r

/-- Nothing posted and no sequence number used. -/
structure NoPost (a : RefMarket C) (p : NewOrderParams C) (s : OrderSummary) (a' : RefMarket C)
    (r : MatchOut C) : Prop where
  why : r.crossed = true ∨ p.postAllowed = false ∨ min (affordable r.quote p.limitPrice) r.base < a.minBase
  sum : s = { postedOrderId := none, totalBaseQty := p.maxBaseQty - r.base,
              totalQuoteQty := p.maxQuoteQty - r.quote, totalBaseQtyPosted := 0 }
  own : a'.orders p.side = a.orders p.side
  events : a'.events = a.events ++ r.events
  seq : a'.seq = a.seq

/-- Posting was tried. -/
structure TriedPost (a : RefMarket C) (p : NewOrderParams C) (r : MatchOut C) : Prop where
  crossed : r.crossed = false
  allowed : p.postAllowed = true
  min : a.minBase ≤ min (affordable r.quote p.limitPrice) r.base
  seq : a.seq + 1 < 2 ^ 64

/-- The side is full of orders that are at least as good. -/
structure Refused (a : RefMarket C) (p : NewOrderParams C) (s : OrderSummary) (a' : RefMarket C)
    (r : MatchOut C) : Prop where
  tried : TriedPost a p r
  full : a.cap p.side ≤ (a.orders p.side).length
  good : ∀ w, (a.orders p.side).getLast? = some w → p.side.asGood w.price p.limitPrice = true
  sum : s = { postedOrderId := none, totalBaseQty := p.maxBaseQty - r.base,
              totalQuoteQty := p.maxQuoteQty - r.quote, totalBaseQtyPosted := 0 }
  own : a'.orders p.side = a.orders p.side
  events : a'.events = a.events ++ r.events
  seq : a'.seq = a.seq + 1

omit [CallbackInfo C] in
/-- The event that announces an eviction. -/
def evictEvents (side : Side) : Option (Order C) → List (Event C)
  | none => []
  | some w => [.out side w.id w.qty w.cb]

/-- The order was posted, keeping the orders `kept` and evicting `evicted`. -/
structure Posted (a : RefMarket C) (p : NewOrderParams C) (s : OrderSummary) (a' : RefMarket C)
    (r : MatchOut C) (kept : List (Order C)) (evicted : Option (Order C)) : Prop where
  tried : TriedPost a p r
  evict : (evicted = none ∧ kept = a.orders p.side ∧ (a.orders p.side).length < a.cap p.side) ∨
    (∃ w, evicted = some w ∧ a.orders p.side = kept ++ [w] ∧ a.cap p.side ≤ (a.orders p.side).length ∧
      p.side.asGood w.price p.limitPrice = false ∧
      r.events.length < a.capEvents - a.events.length)
  sum : s = { postedOrderId := some (mkOrderId p.side p.limitPrice a.seq)
              totalBaseQty := p.maxBaseQty - (r.base - min (affordable r.quote p.limitPrice) r.base)
              totalQuoteQty := p.maxQuoteQty -
                (r.quote - worth p.side (min (affordable r.quote p.limitPrice) r.base) p.limitPrice)
              totalBaseQtyPosted := min (affordable r.quote p.limitPrice) r.base }
  own : a'.orders p.side = insertOrder p.side
    ⟨mkOrderId p.side p.limitPrice a.seq, min (affordable r.quote p.limitPrice) r.base, p.callbackInfo⟩ kept
  events : a'.events = a.events ++ r.events ++ evictEvents p.side evicted
  seq : a'.seq = a.seq + 1

theorem newOrder_cases {a : RefMarket C} {p : NewOrderParams C} {s : OrderSummary} {a' : RefMarket C}
    (h : a.newOrder p = .ok (s, a')) :
    ∃ n r, NewOk a p s a' n r ∧ (NoPost a p s a' r ∨ Refused a p s a' r ∨
      ∃ kept ev, Posted a p s a' r kept ev) := by
  unfold RefMarket.newOrder at h
  split at h
  · cases h
  rename_i ht0
  split at h
  · cases h
  rename_i htick
  split at h
  · cases h
  rename_i r hr
  obtain ⟨n, hn, hst, hroom, hstop⟩ := refMatch_ok hr (fun _ => rfl)
  have htk : 0 < a.tick ∧ p.limitPrice % a.tick = 0 ∧ (p.postAllowed = true → a.tick ≤ p.limitPrice) := by
    refine ⟨by omega, ?_, ?_⟩
    · by_contra hne; exact htick (Or.inl hne)
    · intro hpa
      by_contra hne
      exact htick (Or.inr ⟨hpa, by omega⟩)
  simp only at h
  split at h
  · rename_i hc
    cases h
    refine ⟨n, r, ⟨htk, hst, hn, hroom, hstop, ?_, ?_, hr⟩, Or.inl ⟨?_, rfl, ?_, rfl, ?_⟩⟩
    · cases p.side <;> exact ⟨rfl, rfl, rfl, fun s => by cases s <;> rfl⟩
    · cases p.side <;> rfl
    · rw [Bool.or_eq_true, Bool.or_eq_true, Bool.not_eq_true', decide_eq_true_iff, or_assoc] at hc
      exact hc
    · cases p.side <;> rfl
    · cases p.side <;> rfl
  rename_i hc
  rw [Bool.or_eq_true, Bool.or_eq_true, Bool.not_eq_true', decide_eq_true_iff] at hc
  have hcr : r.crossed = false := by
    cases hh : r.crossed
    · rfl
    · exact absurd (Or.inl (Or.inl hh)) hc
  have hpa : p.postAllowed = true := by
    cases hh : p.postAllowed
    · exact absurd (Or.inl (Or.inr hh)) hc
    · rfl
  have hmin : a.minBase ≤ min (affordable r.quote p.limitPrice) r.base :=
    Nat.not_lt.1 (fun hh => hc (Or.inr hh))
  split at h
  · cases h
  rename_i hseq
  have htried : TriedPost a p r := ⟨hcr, hpa, hmin, Nat.not_le.1 hseq⟩
  have hos : ({ a.setOrders p.side.opposite r.opp with events := a.events ++ r.events } :
        RefMarket C).orders p.side = a.orders p.side := by cases p.side <;> rfl
  rw [hos] at h
  split at h
  · cases h
  rename_i po hpo
  unfold refPost at hpo
  split at hpo
  · rename_i hlen
    cases hpo
    simp only [if_true] at h
    cases h
    refine ⟨n, r, ⟨htk, hst, hn, hroom, hstop, ?_, ?_, hr⟩,
      Or.inr (Or.inr ⟨a.orders p.side, none, htried, Or.inl ⟨rfl, rfl, hlen⟩, rfl, ?_, rfl, ?_⟩)⟩
    · cases p.side <;> exact ⟨rfl, rfl, rfl, fun s => by cases s <;> rfl⟩
    · cases p.side <;> rfl
    · cases p.side <;> rfl
    · cases p.side <;> rfl
  rename_i hlen
  have hidp : (⟨mkOrderId p.side p.limitPrice a.seq, min (affordable r.quote p.limitPrice) r.base,
      p.callbackInfo⟩ : Order C).price = p.limitPrice := mkOrderId_price (by omega)
  rw [hidp] at hpo
  split at hpo
  · rename_i hlast
    cases hpo
    simp only [Bool.false_eq_true, if_false] at h
    cases h
    refine ⟨n, r, ⟨htk, hst, hn, hroom, hstop, ?_, ?_, hr⟩,
      Or.inr (Or.inl ⟨htried, Nat.not_lt.1 hlen, ?_, rfl, ?_, rfl, rfl⟩)⟩
    · cases p.side <;> exact ⟨rfl, rfl, rfl, fun s => by cases s <;> rfl⟩
    · cases p.side <;> rfl
    · intro w hw; rw [hlast] at hw; cases hw
    · cases p.side <;> rfl
  rename_i w hlast
  split at hpo
  · rename_i hg
    cases hpo
    simp only [Bool.false_eq_true, if_false] at h
    cases h
    refine ⟨n, r, ⟨htk, hst, hn, hroom, hstop, ?_, ?_, hr⟩,
      Or.inr (Or.inl ⟨htried, Nat.not_lt.1 hlen, ?_, rfl, ?_, rfl, rfl⟩)⟩
    · cases p.side <;> exact ⟨rfl, rfl, rfl, fun s => by cases s <;> rfl⟩
    · cases p.side <;> rfl
    · intro w' hw'
      rw [hlast] at hw'
      cases hw'; exact hg
    · cases p.side <;> rfl
  rename_i hg
  split at hpo
  · cases hpo
  rename_i hr0
  cases hpo
  simp only [if_true] at h
  cases h
  refine ⟨n, r, ⟨htk, hst, hn, hroom, hstop, ?_, ?_, hr⟩,
      Or.inr (Or.inr ⟨(a.orders p.side).dropLast, some w, htried,
        Or.inr ⟨w, rfl, ?_, Nat.not_lt.1 hlen, ?_, ?_⟩, rfl, ?_, rfl, ?_⟩)⟩
  · cases p.side <;> exact ⟨rfl, rfl, rfl, fun s => by cases s <;> rfl⟩
  · cases p.side <;> rfl
  · exact (List.dropLast_append_getLast? w hlast).symm
  · simpa using hg
  · simp only [List.length_append] at hr0; omega
  · cases p.side <;> rfl
  · cases p.side <;> rfl

/-- Errors of a new order. -/
theorem newOrder_err {a : RefMarket C} {p : NewOrderParams C} {e : Err} (h : a.newOrder p = .error e) :
    (e = .panic ∧ a.tick = 0) ∨
    (e = .ao .invalidLimitPrice ∧ (p.limitPrice % a.tick ≠ 0 ∨ (p.postAllowed ∧ p.limitPrice < a.tick))) ∨
    e = .ao .eventQueueFull ∨ (e = .ao .wouldSelfTrade ∧ p.selfTradeBehavior = .abortTransaction) ∨
    (e = .panic ∧ a.seq + 1 ≥ 2 ^ 64) := by
  unfold RefMarket.newOrder at h
  split at h
  · cases h; left; exact ⟨rfl, by assumption⟩
  split at h
  · cases h; right; left; exact ⟨rfl, by assumption⟩
  split at h
  · rename_i hr
    cases h
    rcases refMatch_err hr with rfl | ⟨rfl, h2⟩
    · right; right; left; rfl
    · right; right; right; left; exact ⟨rfl, h2⟩
  simp only at h
  split at h
  · cases h
  split at h
  · cases h; right; right; right; right; exact ⟨rfl, by assumption⟩
  split at h
  · rename_i hr
    cases h
    right; right; left
    unfold refPost at hr
    split at hr
    · cases hr
    split at hr
    · cases hr
    split at hr
    · cases hr
    split at hr
    · cases hr; rfl
    · cases hr
  · split at h
    · cases h
    · cases h

end AOB
