import Verif.Spec.Verdict
import Verif.Proofs.QueueHeads
import Verif.Props.Failure
import Verif.Props.Accounts
/-
The tables of `Spec/Verdict` against the processors.
-/
namespace AOB

/-- `t` lists what makes `x` fail; if none of it applies, `K` holds. -/
structure Decides {α : Type} (x : Res α) (t : List (Bool × Err)) (K : Prop) : Prop where
  fails : ∀ e, firstError t = some e → x = .error e
  passes : firstError t = none → K

theorem firstError_append (s t : List (Bool × Err)) : firstError (s ++ t) = (firstError s).or (firstError t) := by
  induction s with
  | nil => rfl
  | cons c s ih =>
    obtain ⟨c, e⟩ := c
    rw [List.cons_append]
    cases c with
    | true => rfl
    | false => exact ih

theorem firstError_none {t : List (Bool × Err)} : firstError t = none ↔ ∀ c ∈ t, c.1 = false := by
  induction t with
  | nil => simp [firstError]
  | cons c s ih =>
    obtain ⟨c, e⟩ := c
    unfold firstError
    cases c <;> simp [ih]

theorem firstError_mem {t : List (Bool × Err)} {e : Err} (h : firstError t = some e) : e ∈ t.map Prod.snd := by
  induction t with
  | nil => cases h
  | cons c s ih =>
    obtain ⟨c, e⟩ := c
    unfold firstError at h
    split at h
    · cases h; simp
    · exact List.mem_cons_of_mem _ (ih h)

namespace Decides
variable {α β : Type} {x : Res α} {t t' : List (Bool × Err)} {K K' : Prop}

theorem step {c : Bool} {e : Err} (h1 : c = true → x = .error e) (h2 : c = false → Decides x t K) :
    Decides x ((c, e) :: t) K := by
  cases c with
  | true =>
    refine ⟨fun e' h => ?_, fun h => ?_⟩
    · rw [h1 rfl]; simp only [firstError, if_true] at h; rw [Option.some.inj h]
    · simp [firstError] at h
  | false =>
    obtain ⟨a, b⟩ := h2 rfl
    exact ⟨fun e' h => a e' (by simpa [firstError] using h), fun h => b (by simpa [firstError] using h)⟩

theorem done (h : K) : Decides x [] K := ⟨fun _ h => (by cases h), fun _ => h⟩

theorem bind {f : α → Res β} {P : α → Prop} (h : Decides x t (∃ a, x = .ok a ∧ P a))
    (h' : ∀ a, P a → Decides (f a) t' K) : Decides (x >>= f) (t ++ t') K := by
  constructor
  · intro e he
    rw [firstError_append] at he
    cases hx : firstError t with
    | some e1 =>
      rw [hx] at he
      rw [h.fails e1 hx, ← Option.some.inj he]; rfl
    | none =>
      rw [hx] at he
      obtain ⟨a, ha, hP⟩ := h.passes hx
      rw [ha]
      exact (h' a hP).fails e he
  · intro he
    rw [firstError_append] at he
    cases hx : firstError t with
    | some e1 => rw [hx] at he; cases he
    | none =>
      rw [hx] at he
      obtain ⟨a, ha, hP⟩ := h.passes hx
      exact (h' a hP).passes he

/-- The last check. -/
theorem last {f : α → Res β} {P : α → Prop} (h : Decides x t (∃ a, x = .ok a ∧ P a)) (h' : ∀ a, P a → K) :
    Decides (x >>= f) t K := by
  have := h.bind (f := f) (t' := []) fun a ha => Decides.done (h' a ha)
  rwa [List.append_nil] at this

theorem check {c : Bool} {e : Err} {f : α → Res β} {P : α → Prop} (h : Decides x [(c, e)] (∃ a, x = .ok a ∧ P a))
    (h' : ∀ a, P a → Decides (f a) t K) : Decides (x >>= f) ((c, e) :: t) K := h.bind h'

theorem error (h : Decides x t K) {e : Err} (he : x = .error e) : e ∈ t.map Prod.snd ∨ K := by
  cases hx : firstError t with
  | none => exact .inr (h.passes hx)
  | some e' =>
    have := h.fails e' hx
    rw [he] at this
    cases this
    exact .inl (firstError_mem hx)

/-- A check that succeeds anyway. -/
theorem free {f : α → Res β} {a : α} (h : x = .ok a) (h' : Decides (f a) t K) : Decides (x >>= f) t K := by
  rw [h]; exact h'

theorem mono (h : Decides x t K) (hK : K → K') : Decides x t K' := ⟨h.fails, fun g => hK (h.passes g)⟩

end Decides

section
variable {env : Env} {w : World} {k : Pubkey}

theorem owner_decides (w : World) (k o : Pubkey) (e : AoError) : Decides (checkAccountOwner w k o e)
    [((w k).owner != o, .ao e)] (∃ u, checkAccountOwner w k o e = .ok u ∧ (w k).owner = o) := by
  unfold checkAccountOwner
  refine .step (fun h => ?_) (fun h => .done ?_)
  · exact if_pos (by simpa using h)
  · have h : (w k).owner = o := by simpa using h
    exact ⟨(), if_neg (by simp [h]), h⟩

theorem key_decides (k j : Pubkey) (e : AoError) : Decides (checkAccountKey k j e) [(k != j, .ao e)]
    (∃ u, checkAccountKey k j e = .ok u ∧ k = j) := by
  unfold checkAccountKey
  refine .step (fun h => ?_) (fun h => .done ?_)
  · exact if_pos (by simpa using h)
  · have h : k = j := by simpa using h
    exact ⟨(), if_neg (by simp [h]), h⟩

theorem rent_decides (env : Env) (w : World) (k : Pubkey) : Decides (checkRentExempt env w k)
    [(!env.rentExempt (w k).lamports (w k).data.length, .prog .accountNotRentExempt)]
    (∃ u, checkRentExempt env w k = .ok u ∧ env.rentExempt (w k).lamports (w k).data.length = true) := by
  unfold checkRentExempt
  refine .step (fun h => ?_) (fun h => .done ?_)
  · exact if_neg (by simpa using h)
  · have h : env.rentExempt (w k).lamports (w k).data.length = true := by simpa using h
    exact ⟨(), if_pos h, h⟩

/-- Owners of the four accounts. -/
structure Owned (env : Env) (w : World) (a : BookAccounts) : Prop where
  market : (w a.market).owner = env.programId
  eventQueue : (w a.eventQueue).owner = env.programId
  bids : (w a.bids).owner = env.programId
  asks : (w a.asks).owner = env.programId

theorem owners_decide (env : Env) (w : World) (a : BookAccounts) : Decides (a.performChecks env w) (ownerTable env w a)
    (∃ u, a.performChecks env w = .ok u ∧ Owned env w a) := by
  have h : Decides (a.performChecks env w) (ownerTable env w a) (Owned env w a) := by
    unfold BookAccounts.performChecks ownerTable
    refine Decides.bind (t' := [_, _, _]) (owner_decides _ _ _ _) fun _ h1 => ?_
    refine Decides.bind (t' := [_, _]) (owner_decides _ _ _ _) fun _ h2 => ?_
    refine Decides.bind (t' := [_]) (owner_decides _ _ _ _) fun _ h3 => ?_
    exact (owner_decides _ _ _ _).mono fun ⟨_, _, h4⟩ => ⟨h1, h2, h3, h4⟩
  exact h.mono fun g => ⟨(), performChecks_ok_iff.2 ⟨g.1, g.2, g.3, g.4⟩, g⟩

/-- The accounts are those the market names. -/
structure Named (w : World) (a : BookAccounts) : Prop where
  eventQueue : a.eventQueue = (stateAt w a.market).eventQueue
  bids : a.bids = (stateAt w a.market).bids
  asks : a.asks = (stateAt w a.market).asks

theorem keys_decide (w : World) (a : BookAccounts) : Decides (a.checkAccounts (stateAt w a.market)) (keyTable w a)
    (∃ u, a.checkAccounts (stateAt w a.market) = .ok u ∧ Named w a) := by
  have h : Decides (a.checkAccounts (stateAt w a.market)) (keyTable w a) (Named w a) := by
    unfold BookAccounts.checkAccounts keyTable
    refine Decides.bind (t' := [_, _]) (key_decides _ _ _) fun _ h1 => ?_
    refine Decides.bind (t' := [_]) (key_decides _ _ _) fun _ h2 => ?_
    exact (key_decides _ _ _).mono fun ⟨_, _, h3⟩ => ⟨h1, h2, h3⟩
  exact h.mono fun g => ⟨(), checkAccounts_ok_iff.2 ⟨g.1, g.2, g.3⟩, g⟩

variable {C : Type} [Pod C]

theorem Slab.readable_iff {d : Bytes} : slabReadable C d.length = true ↔ ∃ s : Slab C, SlabParts C d s := by
  unfold slabReadable
  rw [Bool.and_eq_true, decide_eq_true_iff, decide_eq_true_iff]
  have hp : 0 < Pod.size C := Pod.size_pos
  constructor
  · rintro ⟨h1, h2⟩
    have hl := slab_len_eq (C := C) h1
    have h2' : slabSlack C d.length % Pod.size C = 0 := by
      unfold slabSlack; rw [Nat.sub_sub]; exact h2
    generalize hq : slabCap C d.length = q at *
    generalize slabSlack C d.length = r at *
    have hc : ∀ {α : Type} (n : Nat) (dec : Bytes → α) (b : Bytes), b.length % n = 0 → ∃ l, castSlice n dec b = .ok l :=
      fun n dec b h => ⟨_, if_pos h⟩
    obtain ⟨l1, g1⟩ := hc 24 LeafNode.ofBytes ((d.drop 40).take ((q + 1) * 24)) (by
      rw [List.length_take, List.length_drop, Nat.min_eq_left (by omega)]; exact Nat.mul_mod_left _ _)
    obtain ⟨l2, g2⟩ := hc 32 InnerNode.ofBytes ((d.drop (40 + (q + 1) * 24)).take (q * 32)) (by
      rw [List.length_take, List.length_drop, Nat.min_eq_left (by omega)]; exact Nat.mul_mod_left _ _)
    obtain ⟨l3, g3⟩ := hc (Pod.size C) (Pod.ofBytes (C := C)) (d.drop (40 + (q + 1) * 24 + q * 32)) (by
      rw [List.length_drop, show d.length - (40 + (q + 1) * 24 + q * 32) = (q + 1) * Pod.size C + r by omega,
        Nat.mul_add_mod']
      exact h2')
    rw [← hq] at g1 g2 g3
    exact ⟨⟨_, l1, l2, l3⟩, h1, rfl, g1, g2, g3⟩
  · rintro ⟨s, hs⟩
    refine ⟨hs.long, ?_⟩
    have := hs.lengths.2.2.1
    unfold slabSlack at this
    rwa [Nat.sub_sub] at this

/-- A slab with the right tag that cannot be read is a panic. -/
theorem slab_decides {d : Bytes} {t : AccountTag} {x : UInt8} (hx : d[0]? = some x) (ht : x.toNat = t.toNat) :
    Decides (Slab.fromBuffer C d t) [(!slabReadable C d.length, .panic)]
      (∃ s, Slab.fromBuffer C d t = .ok s ∧ SlabParts C d s) := by
  refine .step (fun h => ?_) (fun h => .done ?_)
  · have hno : ¬ ∃ s : Slab C, SlabParts C d s := by rw [← Slab.readable_iff]; simpa using h
    cases hr : Slab.fromBuffer C d t with
    | ok s => exact absurd ⟨s, (Slab.fromBuffer_ok_iff.1 hr).1⟩ hno
    | error e =>
      congr 1
      unfold Slab.fromBuffer at hr
      simp only [subU, idx, castSlice, hx, ht, bind, Except.bind, ne_eq, not_true_eq_false, if_false] at hr
      repeat' split at hr
      all_goals first | (cases hr; done) | (rename_i g; revert g; repeat' split) <;> (intro g; cases g <;> cases hr <;> rfl)
  · obtain ⟨s, hs⟩ := Slab.readable_iff.1 (show slabReadable C d.length = true by simpa using h)
    exact ⟨s, Slab.fromBuffer_ok_iff.2 ⟨hs, x, hx, ht⟩, hs⟩

theorem market_decides (hT : TidyData C (w k).data) : Decides (MarketState.fromBuffer (w k).data .market) (marketTable w k)
    (∃ x, MarketState.fromBuffer (w k).data .market = .ok x ∧ x = (stateAt w k, (w k).data) ∧
      (w k).data.length = 120 ∧ field (w k).data 0 8 = 128) := by
  unfold marketTable
  refine .step (fun h => ?_) (fun h => .step (fun h' => ?_) (fun h' => .done ?_))
  · have h : ¬ 8 ≤ (w k).data.length := by have := of_decide_eq_true h; omega
    unfold MarketState.fromBuffer readTag
    rw [if_neg h]; rfl
  · have h : 8 ≤ (w k).data.length := by have := of_decide_eq_false h; omega
    unfold MarketState.fromBuffer readTag
    rw [if_pos h, ok_bind, if_pos (by simpa [AccountTag.toNat] using h')]
  · have h : 8 ≤ (w k).data.length := by have := of_decide_eq_false h; omega
    have h' : field (w k).data 0 8 = 128 := by simpa using h'
    have hl := hT.market (byte0_of_field h h')
    exact ⟨_, marketRead hl h', rfl, hl, h'⟩

theorem newSafe_decides {b a : Bytes} (hb : b[0]? = some 130) (ha : a[0]? = some 131) :
    Decides (OrderBook.newSafe C b a) [(!slabReadable C b.length, .panic), (!slabReadable C a.length, .panic)]
      (∃ o, OrderBook.newSafe C b a = .ok o ∧ SlabParts C b o.bids ∧ SlabParts C a o.asks) := by
  have h : Decides (OrderBook.newSafe C b a) [(!slabReadable C b.length, .panic), (!slabReadable C a.length, .panic)]
      (∃ s s' : Slab C, SlabParts C b s ∧ SlabParts C a s') := by
    unfold OrderBook.newSafe
    refine Decides.bind (t' := [_]) (slab_decides hb rfl) fun s hs => ?_
    exact Decides.last (slab_decides ha rfl) fun s' hs' => ⟨s, s', hs, hs'⟩
  exact h.mono fun ⟨s, s', h1, h2⟩ => ⟨⟨s, s'⟩, newSafe_ok_iff.2 ⟨h1, hb, h2, ha⟩, h1, h2⟩

variable [CallbackInfo C] {R : Pubkey → Prop} {a : BookAccounts}

omit [CallbackInfo C] in
theorem Linked.distinct (h : Linked env C R w k) (ht : field (w k).data 0 8 = 128) (hl : (w k).data.length = 120) :
    k ≠ (stateAt w k).eventQueue ∧ k ≠ (stateAt w k).bids ∧ k ≠ (stateAt w k).asks ∧
    (stateAt w k).eventQueue ≠ (stateAt w k).bids ∧ (stateAt w k).eventQueue ≠ (stateAt w k).asks ∧
    (stateAt w k).bids ≠ (stateAt w k).asks := by
  have b0 := byte0_of_field (by omega) ht
  exact ⟨ne_of_byte0 b0 h.byteQ (by decide), ne_of_byte0 b0 h.tagB (by decide), ne_of_byte0 b0 h.tagA (by decide),
    ne_of_byte0 h.byteQ h.tagB (by decide), ne_of_byte0 h.byteQ h.tagA (by decide), ne_of_byte0 h.tagB h.tagA (by decide)⟩

omit [CallbackInfo C] in
/-- What remains when nothing in the table applies. -/
theorem Linked.loaded (h : Linked env C R w k) (hl : (w k).data.length = 120) (ht : field (w k).data 0 8 = 128)
    {b : OrderBook C} (h1 : SlabParts C (w (stateAt w k).bids).data b.bids)
    (h2 : SlabParts C (w (stateAt w k).asks).data b.asks) : ∃ m : Market C, Loaded w k m := by
  obtain ⟨q, hq⟩ := h.decodes
  exact ⟨⟨_, _, b, q⟩, hl, ht, rfl, rfl, h1, h.tagB, h2, h.tagA, hq, h.tagQ⟩

theorem cancelLike_decides (hi : ChainInv env C R w) (hT : Tidy env C R w) (hR : ¬ R a.market) {β : Type}
    (f : MarketState × Bytes → OrderBook C → Res β) :
    Decides (do
      a.performChecks env w
      let held ← borrow [] a.market
      let x ← MarketState.fromBuffer (w a.market).data .market
      a.checkAccounts x.1
      let held ← borrow held a.bids
      let _ ← borrow held a.asks
      let book ← OrderBook.newSafe C (w a.bids).data (w a.asks).data
      f x book) (cancelTable env C w a) (Auth env w a ∧ ∃ m : Market C, Loaded w a.market m) := by
  unfold cancelTable
  refine Decides.bind (owners_decide env w a) fun _ ho => ?_
  refine Decides.free (borrow_of List.not_mem_nil) ?_
  refine Decides.bind (market_decides (hT _ hR ho.market)) fun x hx => ?_
  obtain ⟨rfl, hl, ht⟩ := hx
  refine Decides.bind (keys_decide w a) fun _ hn => ?_
  have hL := hi.link _ hR ⟨ho.market, hl, ht⟩
  obtain ⟨d1, d2, d3, d4, d5, d6⟩ := hL.distinct ht hl
  rw [← hn.bids] at d2 d6
  rw [← hn.asks] at d3 d6
  refine Decides.free (borrow_of (show a.bids ∉ [a.market] by simp [d2.symm])) ?_
  refine Decides.free (borrow_of (show a.asks ∉ [a.bids, a.market] by simp [d3.symm, d6.symm])) ?_
  have tb := hL.tagB
  have ta := hL.tagA
  rw [← hn.bids] at tb
  rw [← hn.asks] at ta
  refine Decides.last (newSafe_decides tb ta) fun o ⟨h1, h2⟩ => ⟨⟨ho.1, ho.2, ho.3, ho.4, hn.1, hn.2, hn.3⟩, ?_⟩
  rw [hn.bids] at h1
  rw [hn.asks] at h2
  exact hL.loaded hl ht h1 h2

theorem cancel_decides (hi : ChainInv env C R w) (hT : Tidy env C R w) (hR : ¬ R a.market) (id : Nat) :
    Decides (Processor.cancelOrder env C w a id) (cancelTable env C w a)
      (Auth env w a ∧ ∃ m : Market C, Loaded w a.market m) :=
  cancelLike_decides hi hT hR _

theorem massCancel_decides (hi : ChainInv env C R w) (hT : Tidy env C R w) (hR : ¬ R a.market) (ids : List Nat) :
    Decides (Processor.massCancelOrders env C w a ids) (cancelTable env C w a)
      (Auth env w a ∧ ∃ m : Market C, Loaded w a.market m) :=
  cancelLike_decides hi hT hR _

omit [Pod C] [CallbackInfo C] in
theorem tick_decides (ms : MarketState) (p : NewOrderParams C) : Decides (Processor.checkTick ms p)
    [(ms.tickSize == 0, .panic), (p.limitPrice % ms.tickSize != 0, .ao .invalidLimitPrice),
     (p.postAllowed && decide (p.limitPrice < ms.tickSize), .ao .invalidLimitPrice)]
    (∃ u, Processor.checkTick ms p = .ok u ∧ True) := by
  unfold Processor.checkTick remU
  refine .step (fun h => ?_) (fun h => ?_)
  · rw [if_pos (by simpa using h)]; rfl
  have h : ms.tickSize ≠ 0 := by simpa using h
  rw [if_neg h, ok_bind]
  refine .step (fun h => ?_) (fun h => .step (fun h' => ?_) (fun h' => .done ?_))
  · rw [if_pos (by simpa using h)]
  · rw [if_neg (by simpa using h), if_pos h']
  · exact ⟨(), by rw [if_neg (by simpa using h), if_neg (by simp [h'])], trivial⟩

theorem newOrder_decides (hi : ChainInv env C R w) (hT : Tidy env C R w) (hR : ¬ R a.market) (p : NewOrderParams C) :
    Decides (Processor.newOrder env w a p) (newOrderTable env w a p)
      (Auth env w a ∧ ∃ m : Market C, Loaded w a.market m) := by
  unfold newOrderTable Processor.newOrder
  refine Decides.bind (owners_decide env w a) fun _ ho => ?_
  refine Decides.free (borrow_of List.not_mem_nil) ?_
  refine Decides.bind (market_decides (hT _ hR ho.market)) fun x hx => ?_
  obtain ⟨rfl, hl, ht⟩ := hx
  refine Decides.bind (keys_decide w a) fun _ hn => ?_
  refine Decides.bind (tick_decides _ p) fun _ _ => ?_
  have hL := hi.link _ hR ⟨ho.market, hl, ht⟩
  obtain ⟨d1, d2, d3, d4, d5, d6⟩ := hL.distinct ht hl
  rw [← hn.bids] at d2 d6
  rw [← hn.asks] at d3 d6
  refine Decides.free (borrow_of (show a.bids ∉ [a.market] by simp [d2.symm])) ?_
  refine Decides.free (borrow_of (show a.asks ∉ [a.bids, a.market] by simp [d3.symm, d6.symm])) ?_
  have tb := hL.tagB
  have ta := hL.tagA
  rw [← hn.bids] at tb
  rw [← hn.asks] at ta
  refine Decides.last (newSafe_decides tb ta) fun o ⟨h1, h2⟩ => ⟨⟨ho.1, ho.2, ho.3, ho.4, hn.1, hn.2, hn.3⟩, ?_⟩
  rw [hn.bids] at h1
  rw [hn.asks] at h2
  exact hL.loaded hl ht h1 h2

omit [CallbackInfo C] in
theorem consume_decides {mk qk : Pubkey} (hT : Tidy env C R w) (hR : ¬ R mk) (n : Nat) :
    Decides (Processor.consumeEvents env C w mk qk n) (consumeTable env w mk qk)
      (IsMarket env w mk ∧ (w qk).owner = env.programId ∧ qk = (stateAt w mk).eventQueue) := by
  unfold consumeTable Processor.consumeEvents
  refine Decides.bind (t := [_]) (t' := _ :: _) (owner_decides _ _ _ _) fun _ h1 => ?_
  refine Decides.bind (t := [_]) (owner_decides _ _ _ _) fun _ h2 => ?_
  refine Decides.free (borrow_of List.not_mem_nil) ?_
  refine Decides.bind (market_decides (hT _ hR h1)) fun x hx => ?_
  obtain ⟨rfl, hl, ht⟩ := hx
  exact Decides.last (key_decides _ _ _) fun _ hk => ⟨⟨h1, hl, ht⟩, h2, hk⟩

theorem close_decides (hi : ChainInv env C R w) (hT : Tidy env C R w) (hR : ¬ R a.market) (target : Pubkey) :
    Decides (Processor.closeMarket env C w a target) (closeTable env C w a)
      (IsMarket env w a.market ∧ Named w a ∧ ∃ m : Market C, Loaded w a.market m) := by
  unfold closeTable Processor.closeMarket
  refine Decides.bind (t := [_]) (owner_decides _ _ _ _) fun _ ho => ?_
  refine Decides.free (borrow_of List.not_mem_nil) ?_
  refine Decides.bind (market_decides (hT _ hR ho)) fun x hx => ?_
  obtain ⟨rfl, hl, ht⟩ := hx
  refine Decides.bind (keys_decide w a) fun _ hn => ?_
  have hL := hi.link _ hR ⟨ho, hl, ht⟩
  obtain ⟨d1, d2, d3, d4, d5, d6⟩ := hL.distinct ht hl
  rw [← hn.bids] at d2 d6
  rw [← hn.asks] at d3 d6
  refine Decides.free (borrow_of (show a.bids ∉ [a.market] by simp [d2.symm])) ?_
  refine Decides.free (borrow_of (show a.asks ∉ [a.bids, a.market] by simp [d3.symm, d6.symm])) ?_
  have tb := hL.tagB
  have ta := hL.tagA
  rw [← hn.bids] at tb
  rw [← hn.asks] at ta
  have hd := newSafe_decides (C := C) tb ta
  constructor
  · intro e he
    rw [hd.fails e he]
    have : e = .panic := by
      have := firstError_mem he
      simpa [readTable] using this
    rw [this]
  · intro he
    obtain ⟨o, _, h1, h2⟩ := hd.passes he
    rw [hn.bids] at h1
    rw [hn.asks] at h2
    exact ⟨⟨ho, hl, ht⟩, hn, hL.loaded hl ht h1 h2⟩

/-- `close_market` once the market is loaded. -/
theorem close_decides' (hi : ChainInv env C R w) (hR : ¬ R a.market) (hM : IsMarket env w a.market) (hn : Named w a)
    {m : Market C} (hm : Loaded w a.market m) (target : Pubkey) :
    Decides (Processor.closeMarket env C w a target) (closeTable' w a target m)
      (∃ w', Processor.closeMarket env C w a target = .ok w') := by
  have hL := hi.link _ hR hM
  obtain ⟨d1, d2, d3, d4, d5, d6⟩ := hL.distinct hM.2.2 hM.2.1
  have hr := hi.reach _ hR hM m hm
  have lb := hm.bids
  have la := hm.asks
  have lq := hm.queue
  have tb := hm.bidsTag
  have ta := hm.asksTag
  have tq := hm.queueTag
  rw [← hn.bids] at d2 d4 d6 lb tb
  rw [← hn.asks] at d3 d5 d6 la ta
  rw [← hn.eventQueue] at d1 d4 d5 lq tq
  have hlb := lb.long
  have hla := la.long
  have hlq := lq.long
  have hlm := hM.2.1
  unfold Processor.closeMarket
  rw [bind_of_ok (checkAccountOwner_ok_iff (u := ()).2 hM.1), bind_of_ok (borrow_of List.not_mem_nil),
    bind_of_ok (marketRead hM.2.1 hM.2.2)]
  dsimp only
  rw [bind_of_ok (checkAccounts_ok_iff (u := ()).2 ⟨hn.eventQueue, hn.bids, hn.asks⟩),
    bind_of_ok (borrow_of (show a.bids ∉ [a.market] by simp [d2.symm])),
    bind_of_ok (borrow_of (show a.asks ∉ [a.bids, a.market] by simp [d3.symm, d6.symm])),
    newSafe_ok_iff.2 ⟨lb, tb, la, ta⟩]
  dsimp only
  unfold closeTable'
  have hc := Accounts.counts_empty hr
  refine .step (fun h => ?_) (fun h => ?_)
  · rw [if_pos]
    have : ¬ (m.book.bids.header.leafCount = 0 ∧ m.book.asks.header.leafCount = 0) := by
      rw [← hc]
      rintro ⟨e1, e2⟩
      simp [e1, e2] at h
    simp only [OrderBook.isEmpty, Bool.not_eq_true', Bool.and_eq_false_iff, beq_eq_false_iff_ne]
    by_cases e : m.book.asks.header.leafCount = 0
    · exact .inr fun e' => this ⟨e', e⟩
    · exact .inl e
  have h0 : m.book.bids.header.leafCount = 0 ∧ m.book.asks.header.leafCount = 0 := by
    rw [← hc]
    simpa using h
  rw [if_neg (by simp [OrderBook.isEmpty, h0.1, h0.2]),
    bind_of_ok (borrow_of (show a.eventQueue ∉ [a.asks, a.bids, a.market] by simp [d1.symm, d4, d5])),
    bind_of_ok (queueRead lq tq)]
  dsimp only
  have hp := Accounts.pending_empty hr
  refine .step (fun h => ?_) (fun h => ?_)
  · rw [if_pos]
    rw [ne_eq, ← hp]
    simpa using h
  rw [if_neg (by rw [not_not, ← hp]; simpa using h),
    bind_of_ok (writeTag_ok_iff.2 ⟨by omega, rfl⟩), bind_of_ok (writeTag_ok_iff.2 ⟨by omega, rfl⟩),
    bind_of_ok (writeTag_ok_iff.2 ⟨by omega, rfl⟩), bind_of_ok (writeTag_ok_iff.2 ⟨by omega, rfl⟩),
    bind_of_ok (borrow_of List.not_mem_nil),
    bind_of_ok (borrow_of (show a.bids ∉ [a.market] by simp [d2.symm])),
    bind_of_ok (borrow_of (show a.asks ∉ [a.bids, a.market] by simp [d3.symm, d6.symm])),
    bind_of_ok (borrow_of (show a.eventQueue ∉ [a.asks, a.bids, a.market] by simp [d1.symm, d4, d5]))]
  refine .step (fun h => ?_) (fun h => ?_)
  · have h : target ∈ [a.market, a.bids, a.asks, a.eventQueue] := of_decide_eq_true h
    have : borrow [a.eventQueue, a.asks, a.bids, a.market] target = .error .panic := if_pos (by
      simp only [List.mem_cons, List.not_mem_nil, or_false] at h ⊢
      tauto)
    rw [this]; rfl
  have h : ¬ target ∈ [a.market, a.bids, a.asks, a.eventQueue] := of_decide_eq_false h
  rw [bind_of_ok (borrow_of (show target ∉ [a.eventQueue, a.asks, a.bids, a.market] by
    simp only [List.mem_cons, List.not_mem_nil, or_false] at h ⊢
    tauto))]
  have hU : U64 = 2 ^ 64 := by decide
  refine .step (fun h => ?_) (fun h => .done ?_)
  · have h := of_decide_eq_true h
    unfold addU64
    split
    · rw [ok_bind]
      split
      · rw [ok_bind]
        split
        · rw [ok_bind]
          rw [if_neg (by omega)]; rfl
        · rfl
      · rfl
    · rfl
  · have h := of_decide_eq_false h
    rw [bind_of_ok (addU64_ok_iff.2 ⟨by omega, rfl⟩), bind_of_ok (addU64_ok_iff.2 ⟨by omega, rfl⟩),
      bind_of_ok (addU64_ok_iff.2 ⟨by omega, rfl⟩), bind_of_ok (addU64_ok_iff.2 ⟨by omega, rfl⟩)]
    exact ⟨_, rfl⟩

omit [CallbackInfo C] in
theorem fresh_queue {d : Bytes} (h1 : 32 + 5 * (40 + 2 * Pod.size C) ≤ d.length)
    (h2 : (d.length - 32) % (40 + 2 * Pod.size C) = 0) (h3 : field d 0 8 = 0) :
    ∃ x, EventQueue.fromBuffer C d .uninitialized = .ok x := by
  have hp : 0 < Pod.size C := Pod.size_pos
  have hc : ∀ {α : Type} (n : Nat) (dec : Bytes → α) (b : Bytes), b.length % n = 0 → ∃ l, castSlice n dec b = .ok l :=
    fun n dec b h => ⟨_, if_pos h⟩
  have hlen : d.length = 32 + queueCap C d.length * (40 + 2 * Pod.size C) := by
    have := Nat.div_add_mod (d.length - 32) (40 + 2 * Pod.size C)
    rw [h2, Nat.add_zero, Nat.mul_comm] at this
    unfold queueCap
    omega
  have hmul : queueCap C d.length * (40 + 2 * Pod.size C) = queueCap C d.length * 40 + queueCap C d.length * 2 * Pod.size C := by
    rw [Nat.mul_add, Nat.mul_assoc]
  generalize hq : queueCap C d.length = q at *
  obtain ⟨l1, g1⟩ := hc 40 FillEvent.ofBytes ((d.drop 32).take (q * 40)) (by
    rw [List.length_take, List.length_drop, Nat.min_eq_left (by omega)]; exact Nat.mul_mod_left _ _)
  obtain ⟨l2, g2⟩ := hc (Pod.size C) (Pod.ofBytes (C := C)) (d.drop (32 + q * 40)) (by
    rw [List.length_drop, show d.length - (32 + q * 40) = q * 2 * Pod.size C by omega]; exact Nat.mul_mod_left _ _)
  rw [← hq] at g1 g2
  exact ⟨(⟨_, l1, l2⟩, _), EventQueue.fromBuffer_ok_iff.2 ⟨⟨by omega, rfl, g1, g2⟩, h3, rfl⟩⟩

omit [CallbackInfo C] in
theorem create_decides (env : Env) (w : World) (a : BookAccounts) (p : CreateParams) :
    Decides (Processor.createMarket env C w a p) (createTable env C w a p)
      (∃ w', Processor.createMarket env C w a p = .ok w') := by
  have h : Decides (Processor.createMarket env C w a p) (createTable env C w a p) (CanCreate env C w a p) := by
    unfold createTable Processor.createMarket
    refine .check (owner_decides _ _ _ _) fun _ o1 => ?_
    refine .check (owner_decides _ _ _ _) fun _ o2 => ?_
    refine .check (owner_decides _ _ _ _) fun _ o3 => ?_
    refine .check (rent_decides _ _ _) fun _ r1 => ?_
    refine .check (rent_decides _ _ _) fun _ r2 => ?_
    refine .check (rent_decides _ _ _) fun _ r3 => ?_
    refine .check (rent_decides _ _ _) fun _ r4 => ?_
    refine .step (fun h => if_pos (by simpa using h)) fun h => ?_
    have hpar : p.minBaseOrderSize ≠ 0 ∧ p.tickSize ≠ 0 := by simpa using h
    rw [if_neg (by tauto)]
    refine .step (fun h => ?_) fun s1 => .step (fun h => ?_) fun s2 => ?_
    · have : ¬ ∃ u, EventQueue.checkBufferSize C (w a.eventQueue).data = .ok u := by
        rintro ⟨u, hu⟩
        have := (checkBufferSize_ok_iff.1 hu).1
        have := of_decide_eq_true h
        omega
      cases hx : EventQueue.checkBufferSize C (w a.eventQueue).data with
      | error e => rfl
      | ok u => exact absurd ⟨u, hx⟩ this
    · have : ¬ ∃ u, EventQueue.checkBufferSize C (w a.eventQueue).data = .ok u := by
        rintro ⟨u, hu⟩
        have := (checkBufferSize_ok_iff.1 hu).2
        simp [this] at h
      cases hx : EventQueue.checkBufferSize C (w a.eventQueue).data with
      | error e => rfl
      | ok u => exact absurd ⟨u, hx⟩ this
    have s1 := Nat.not_lt.1 (of_decide_eq_false s1)
    have s2 : ((w a.eventQueue).data.length - 32) % (40 + 2 * Pod.size C) = 0 := by simpa using s2
    rw [checkBufferSize_ok_iff (u := ()).2 ⟨s1, s2⟩]
    refine .free (borrow_of List.not_mem_nil) ?_
    have hsz : Decides (MarketState.checkBufferSize (w a.market).data)
        [((w a.market).data.length != 120, .prog .invalidAccountData)]
        (∃ u, MarketState.checkBufferSize (w a.market).data = .ok u ∧ (w a.market).data.length = 120) := by
      refine .step (fun h => if_pos (by simpa [MarketState.LEN] using h)) fun h => .done ?_
      have h : (w a.market).data.length = 120 := by simpa using h
      exact ⟨(), if_neg (by rw [h]; decide), h⟩
    refine .check hsz fun _ sM => ?_
    have htag : Decides (MarketState.fromBuffer (w a.market).data .uninitialized)
        [(field (w a.market).data 0 8 != 0, .ao .accountTagMismatch)]
        (∃ x, MarketState.fromBuffer (w a.market).data .uninitialized = .ok x ∧ field (w a.market).data 0 8 = 0) := by
      refine .step (fun h => ?_) fun h => .done ?_
      · unfold MarketState.fromBuffer readTag
        rw [if_pos (by omega), ok_bind, if_pos (by simpa [AccountTag.toNat] using h)]
      · have h : field (w a.market).data 0 8 = 0 := by simpa using h
        exact ⟨_, MarketState.fromBuffer_ok_iff.2 ⟨sM, h, rfl, rfl⟩, h⟩
    refine .check htag fun x tM => ?_
    obtain ⟨ms, md⟩ := x
    dsimp only
    refine .step (fun h => ?_) fun h => ?_
    · have h : a.eventQueue = a.market := eq_of_beq h
      have : borrow [a.market] a.eventQueue = .error .panic := if_pos (by simp [h])
      rw [this]; rfl
    have n1 : a.eventQueue ≠ a.market := fun e => by rw [e, beq_self_eq_true] at h; cases h
    refine .free (borrow_of (show a.eventQueue ∉ [a.market] by simp [n1])) ?_
    have hq : Decides (EventQueue.fromBuffer C (w a.eventQueue).data .uninitialized)
        [(field (w a.eventQueue).data 0 8 != 0, .ao .accountTagMismatch)]
        (∃ x, EventQueue.fromBuffer C (w a.eventQueue).data .uninitialized = .ok x ∧
          field (w a.eventQueue).data 0 8 = 0) := by
      refine .step (fun h => ?_) fun h => .done ?_
      · have e2 : EventQueueHeader.LEN = 24 := rfl
        unfold EventQueue.fromBuffer readTag
        rw [bind_of_ok (subU_ok_iff.2 ⟨by omega, rfl⟩), bind_of_ok (subU_ok_iff.2 ⟨by omega, rfl⟩)]
        dsimp only
        rw [if_pos (by omega), ok_bind, if_pos (by simpa [AccountTag.toNat] using h)]
      · have h : field (w a.eventQueue).data 0 8 = 0 := by simpa using h
        obtain ⟨x, hx⟩ := fresh_queue s1 s2 h
        exact ⟨x, hx, h⟩
    refine .check hq fun x tQ => ?_
    obtain ⟨q, qd⟩ := x
    dsimp only
    refine .step (fun h => ?_) fun h => ?_
    · have h : a.asks ∈ [a.market, a.eventQueue] := of_decide_eq_true h
      have : borrow [a.eventQueue, a.market] a.asks = .error .panic := if_pos (by
        simp only [List.mem_cons, List.not_mem_nil, or_false] at h ⊢
        tauto)
      rw [this]; rfl
    have n2 : ¬ a.asks ∈ [a.market, a.eventQueue] := of_decide_eq_false h
    simp only [List.mem_cons, List.not_mem_nil, or_false, not_or] at n2
    refine .free (borrow_of (show a.asks ∉ [a.eventQueue, a.market] by simp [n2])) ?_
    refine .step (fun h => ?_) fun h => ?_
    · have h : a.bids ∈ [a.market, a.eventQueue, a.asks] := of_decide_eq_true h
      have : borrow [a.asks, a.eventQueue, a.market] a.bids = .error .panic := if_pos (by
        simp only [List.mem_cons, List.not_mem_nil, or_false] at h ⊢
        tauto)
      rw [this]; rfl
    have n3 : ¬ a.bids ∈ [a.market, a.eventQueue, a.asks] := of_decide_eq_false h
    simp only [List.mem_cons, List.not_mem_nil, or_false, not_or] at n3
    refine .free (borrow_of (show a.bids ∉ [a.asks, a.eventQueue, a.market] by simp [n3])) ?_
    have hbyte : ∀ (d : Bytes) {β : Type} {f : Res β} {t : List (Bool × Err)} {K : Prop},
        (d[0]? = some 0 → Decides f t K) → Decides (do
          let t ← idx d 0
          if t.toNat ≠ AccountTag.uninitialized.toNat then .error (.prog .accountAlreadyInitialized) else f)
        ((d.isEmpty, .panic) :: (d[0]? != some 0, .prog .accountAlreadyInitialized) :: t) K := by
      intro d β f t K hf
      cases d with
      | nil => exact .step (fun _ => rfl) fun h => by cases h
      | cons b d =>
        refine .step (fun h => by cases h) fun _ => .step (fun h => ?_) fun h => ?_
        · have hb : b ≠ 0 := by simpa using h
          exact if_pos fun h => hb (u8_eq h)
        · have hb : b = 0 := by simpa using h
          subst hb
          exact hf rfl
    have hs : Decides (Slab.initialize (w a.asks).data (w a.bids).data)
        [((w a.asks).data.isEmpty, .panic), ((w a.asks).data[0]? != some 0, .prog .accountAlreadyInitialized),
         ((w a.bids).data.isEmpty, .panic), ((w a.bids).data[0]? != some 0, .prog .accountAlreadyInitialized)]
        (∃ x, Slab.initialize (w a.asks).data (w a.bids).data = .ok x ∧
          (w a.asks).data[0]? = some 0 ∧ (w a.bids).data[0]? = some 0) := by
      have : Decides (Slab.initialize (w a.asks).data (w a.bids).data)
          [((w a.asks).data.isEmpty, .panic), ((w a.asks).data[0]? != some 0, .prog .accountAlreadyInitialized),
           ((w a.bids).data.isEmpty, .panic), ((w a.bids).data[0]? != some 0, .prog .accountAlreadyInitialized)]
          ((w a.asks).data[0]? = some 0 ∧ (w a.bids).data[0]? = some 0) :=
        hbyte _ fun h1 => hbyte _ fun h2 => .done ⟨h1, h2⟩
      exact this.mono fun g => ⟨(_, _), initialize_ok_iff.2 ⟨g.1, g.2, rfl, rfl⟩, g⟩
    exact .last hs fun _ ⟨tA, tB⟩ => ⟨o1, o2, o3, r1, r2, r3, r4, hpar.1, hpar.2, s1, s2, sM, tM, tQ, tA, tB, n1.symm,
      fun e => n2.1 e.symm, fun e => n3.1 e.symm, fun e => n2.2 e.symm, fun e => n3.2.1 e.symm, fun e => n3.2.2 e.symm⟩
  exact h.mono fun g => ⟨_, createMarket_ok_iff.2 ⟨g, rfl⟩⟩

/-! ### What the market may answer -/

omit [Pod C] in
theorem Known.cancel_error {m : Market C} {r : RefMarket C} (h : Known m r) {i : Instr C} (hi : i.Ok)
    (hc : (∃ id, i = .cancelOrder id) ∨ ∃ ids, i = .massCancelOrders ids) {e : Err} (he : m.exec i = .error e) :
    e = .ao .orderNotFound ∨ e = .panic := by
  have hmass : ∀ (ids : List Nat) (b q : Nat) (r : RefMarket C) {e : Err},
      RefMarket.massCancelFrom ids b q r = .error e → e = .ao .orderNotFound ∨ e = .panic := by
    intro ids
    induction ids with
    | nil => intro b q r e h; cases h
    | cons id ids ih =>
      intro b q r e h
      unfold RefMarket.massCancelFrom at h
      split at h
      · cases h; exact .inl rfl
      · split at h
        · exact ih _ _ _ h
        · cases h; exact .inr rfl
  have hr := exec_refines h.rep h.inv i hi
  cases hx : r.exec i with
  | ok x =>
    rw [hx] at hr
    obtain ⟨m', h1, _⟩ := hr
    rw [h1] at he; cases he
  | error e' =>
    rw [hx] at hr
    have he' : e' = .ao .orderNotFound ∨ e' = .panic := by
      rcases hc with ⟨id, rfl⟩ | ⟨ids, rfl⟩
      · unfold RefMarket.exec RefMarket.cancelOrder at hx
        dsimp only at hx
        split at hx
        · cases hx; exact .inl rfl
        · cases hx
      · unfold RefMarket.exec RefMarket.massCancelOrders at hx
        dsimp only at hx
        cases hy : RefMarket.massCancelFrom ids 0 0 r with
        | error e2 =>
          rw [hy] at hx
          cases hx
          exact hmass _ _ _ _ hy
        | ok y => rw [hy] at hx; cases hx
    rcases hr with hr | ⟨_, hr⟩
    · rw [hr] at he; cases he; exact he'
    · rw [hr] at he; cases he; exact .inr rfl

theorem consume_succeeds (hT : Tidy env C R w) {N : Nat} (hq : QueuesOk env C R N w) (hi : ChainInv env C R w) {mk : Pubkey}
    (hR : ¬ R mk) (hM : IsMarket env w mk) (n : Nat) :
    ∃ w', Processor.consumeEvents env C w mk (stateAt w mk).eventQueue n = .ok w' := by
  have hL := hi.link _ hR hM
  obtain ⟨q, hd⟩ := hL.decodes
  have hb := byte0_of_field (by have := hd.long; omega) hL.tagQ
  obtain ⟨⟨h1, h2⟩, _⟩ := hq _ hL.noRegQ hL.ownerQ hb q hd
  have hTd := hT _ hL.noRegQ hL.ownerQ
  have hc := hTd.events hb
  have hs := hTd.small
  have hlen := hd.lengths.1
  have hle : queueCap C (w (stateAt w mk).eventQueue).data.length ≤ (w (stateAt w mk).eventQueue).data.length := by
    unfold queueCap
    exact Nat.le_trans (Nat.div_le_self _ _) (Nat.sub_le _ _)
  unfold MAX_ACCOUNT_LEN at hs
  have hU : U64 = 2 ^ 64 := rfl
  rw [processConsume_eq hM.1 hL.ownerQ rfl ⟨hM.2.1, hM.2.2, hd, hL.tagQ⟩]
  have hmin := Nat.min_le_left q.header.count n
  have hrem : ∃ x, remU (q.header.head + min q.header.count n) q.events.length = .ok x :=
    ⟨_, if_neg (by omega)⟩
  obtain ⟨x, hx⟩ := hrem
  have : q.popN n = .ok { q with header := { q.header with count := q.header.count - min q.header.count n, head := x } } := by
    unfold EventQueue.popN
    rw [bind_of_ok (subU_ok_iff.2 ⟨hmin, rfl⟩), bind_of_ok (addU64_ok_iff.2 ⟨by omega, rfl⟩), bind_of_ok hx]
  rw [this]
  exact ⟨_, rfl⟩

/-! ### The dispatcher -/

variable [Borsh C]

/-- `process_instruction` once the data is decoded. -/
def runIx (env : Env) (w : World) (accounts : List Pubkey) : Ix C → Res (Option OrderSummary × World)
  | .createMarket p => do
    let a ← BookAccounts.parse accounts
    (Processor.createMarket env C w a p).map fun w => (none, w)
  | .newOrder p => do
    let a ← BookAccounts.parse accounts
    (Processor.newOrder env w a p).map fun x => (some x.1, x.2)
  | .consumeEvents n => do
    let a ← parseConsume accounts
    (Processor.consumeEvents env C w a.1 a.2 n).map fun w => (none, w)
  | .cancelOrder id => do
    let a ← BookAccounts.parse accounts
    (Processor.cancelOrder env C w a id).map fun x => (some x.1, x.2)
  | .closeMarket => do
    let a ← parseClose accounts
    (Processor.closeMarket env C w a.1 a.2).map fun w => (none, w)
  | .massCancelOrders ids => do
    let a ← BookAccounts.parse accounts
    (Processor.massCancelOrders env C w a ids).map fun x => (some x.1, x.2)

theorem bind_map {α β : Type} (x : Res α) (f : α → β) : (x >>= fun y => .ok (f y)) = x.map f := by cases x <;> rfl

omit [CallbackInfo C] [Pod C] [Borsh C] in
theorem map_ok {α : Type} {x : Res α} {f : α → Ix C} {ix : Ix C} (h : x.map f = .ok ix) : ∃ y, x = .ok y ∧ f y = ix := by
  cases x with
  | error e => cases h
  | ok y => exact ⟨y, rfl, Except.ok.inj h⟩

theorem processInstruction_run {accounts : List Pubkey} {data : Bytes} {ix : Ix C} (h : decodeIx C data = .ok ix) :
    Processor.processInstruction env C w accounts data = runIx env w accounts ix := by
  unfold decodeIx at h
  obtain ⟨t, ht, hd⟩ := bind_ok h
  unfold Processor.processInstruction
  rw [bind_of_ok ht]
  unfold decodeParams at hd
  cases t with
  | createMarket =>
    obtain ⟨p, hp, rfl⟩ := map_ok hd
    unfold runIx
    cases ha : BookAccounts.parse accounts with
    | error e => rfl
    | ok a =>
      dsimp only
      rw [ok_bind, bind_of_ok hp, ok_bind, bind_map]
  | newOrder =>
    obtain ⟨p, hp, rfl⟩ := map_ok hd
    unfold runIx
    cases ha : BookAccounts.parse accounts with
    | error e => rfl
    | ok a =>
      dsimp only
      rw [ok_bind, bind_of_ok hp, ok_bind]
      exact bind_map _ fun x : OrderSummary × World => (some x.1, x.2)
  | consumeEvents =>
    obtain ⟨p, hp, rfl⟩ := map_ok hd
    unfold runIx
    cases ha : parseConsume accounts with
    | error e => rfl
    | ok a =>
      dsimp only
      rw [ok_bind, bind_of_ok hp, ok_bind, bind_map]
  | cancelOrder =>
    obtain ⟨p, hp, rfl⟩ := map_ok hd
    unfold runIx
    cases ha : BookAccounts.parse accounts with
    | error e => rfl
    | ok a =>
      dsimp only
      rw [ok_bind, bind_of_ok hp, ok_bind]
      exact bind_map _ fun x : OrderSummary × World => (some x.1, x.2)
  | closeMarket =>
    obtain rfl := Except.ok.inj hd
    unfold runIx
    cases ha : parseClose accounts with
    | error e => rfl
    | ok a =>
      dsimp only
      rw [ok_bind, ok_bind, bind_map]
  | massCancelOrders =>
    obtain ⟨p, hp, rfl⟩ := map_ok hd
    unfold runIx
    cases ha : BookAccounts.parse accounts with
    | error e => rfl
    | ok a =>
      dsimp only
      rw [ok_bind, bind_of_ok hp, ok_bind]
      exact bind_map _ fun x : OrderSummary × World => (some x.1, x.2)

theorem parse_short {l : List Pubkey} (h : l.length < 4) : BookAccounts.parse l = .error (.prog .notEnoughAccountKeys) := by
  match l with
  | [] => rfl
  | [_] => rfl
  | [_, _] => rfl
  | [_, _, _] => rfl
  | _ :: _ :: _ :: _ :: _ => simp at h; omega

theorem parseConsume_short {l : List Pubkey} (h : l.length < 2) : parseConsume l = .error (.prog .notEnoughAccountKeys) := by
  match l with
  | [] => rfl
  | [_] => rfl
  | _ :: _ :: _ => simp at h; omega

theorem parseClose_short {l : List Pubkey} (h : l.length < 5) : parseClose l = .error (.prog .notEnoughAccountKeys) := by
  match l with
  | [] => rfl
  | [_] => rfl
  | [_, _] => rfl
  | [_, _, _] => rfl
  | [_, _, _, _] => rfl
  | _ :: _ :: _ :: _ :: _ :: _ => simp at h; omega

theorem parse_enough {l : List Pubkey} (h : 4 ≤ l.length) : ∃ a, BookAccounts.parse l = .ok a := by
  match l with
  | [] => simp at h
  | [_] => simp at h
  | [_, _] => simp at h
  | [_, _, _] => simp at h
  | _ :: _ :: _ :: _ :: _ => exact ⟨_, rfl⟩

theorem parseConsume_enough {l : List Pubkey} (h : 2 ≤ l.length) : ∃ a, parseConsume l = .ok a := by
  match l with
  | [] => simp at h
  | [_] => simp at h
  | _ :: _ :: _ => exact ⟨_, rfl⟩

theorem parseClose_enough {l : List Pubkey} (h : 5 ≤ l.length) : ∃ a, parseClose l = .ok a := by
  match l with
  | [] => simp at h
  | [_] => simp at h
  | [_, _] => simp at h
  | [_, _, _] => simp at h
  | [_, _, _, _] => simp at h
  | _ :: _ :: _ :: _ :: _ :: _ => exact ⟨_, rfl⟩

theorem tryFromSlice_decides {α β : Type} {d : Dec α} {b : Bytes} {f : α → β} {K : Prop} {γ : Type} {g : α → Res γ}
    (hK : ∀ x, tryFromSlice d b = .ok x → K) :
    Decides (tryFromSlice d b >>= g) [(((tryFromSlice d b).map f).toOption.isNone, .prog .invalidInstructionData)] K := by
  refine .step (fun h => ?_) fun h => .done ?_
  · cases hx : tryFromSlice d b with
    | ok x => rw [hx] at h; cases h
    | error e =>
      unfold tryFromSlice at hx
      split at hx
      · cases hx
      · cases hx; rfl
  · cases hx : tryFromSlice d b with
    | ok x => exact hK x hx
    | error e => rw [hx] at h; cases h

theorem ofU8_some {b : UInt8} {t : IxTag} (h : IxTag.ofU8 b = some t) : b = t.toU8 ∧ ¬ 5 < b.toNat := by
  unfold IxTag.ofU8 at h
  repeat' split at h
  all_goals first | (cases h; subst b; decide) | cases h

theorem ofU8_none {b : UInt8} (h : IxTag.ofU8 b = none) : 5 < b.toNat := by
  unfold IxTag.ofU8 at h
  repeat' split at h
  all_goals try cases h
  rename_i h0 h1 h2 h3 h4 h5
  by_contra hc
  have h : b = UInt8.ofNat b.toNat := UInt8.ofNat_toNat.symm
  have : b.toNat = 0 ∨ b.toNat = 1 ∨ b.toNat = 2 ∨ b.toNat = 3 ∨ b.toNat = 4 ∨ b.toNat = 5 := by omega
  rcases this with e | e | e | e | e | e <;> rw [e] at h
  · exact h0 h
  · exact h1 h
  · exact h2 h
  · exact h3 h
  · exact h4 h
  · exact h5 h

theorem dispatch_decides (env : Env) (w : World) (accounts : List Pubkey) (data : Bytes) :
    Decides (Processor.processInstruction env C w accounts data) (dispatchTable C accounts data)
      ((∃ ix : Ix C, decodeIx C data = .ok ix) ∧ accountsNeeded (data.headD 0) ≤ accounts.length) := by
  unfold dispatchTable Processor.processInstruction
  cases data with
  | nil => exact .step (fun _ => rfl) fun h => by cases h
  | cons b rest =>
    refine .step (fun h => by cases h) fun _ => ?_
    have hidx : idx (b :: rest) 0 = .ok b := rfl
    unfold decodeIx decodeTag
    rw [hidx]
    simp only [ok_bind, List.headD_cons]
    cases ht : IxTag.ofU8 b with
    | none => exact .step (fun _ => rfl) fun h => absurd (ofU8_none ht) (of_decide_eq_false h)
    | some t =>
      obtain ⟨rfl, h5⟩ := ofU8_some ht
      refine .step (fun h => absurd (of_decide_eq_true h) h5) fun _ => ?_
      simp only [ok_bind, List.drop_succ_cons, List.drop_zero]
      have short : ∀ {α β : Type} {x : Res α} {f : α → Res β} {n : Nat} {t' : List (Bool × Err)} {K : Prop},
          accountsNeeded t.toU8 = n → (accounts.length < n → x = .error (.prog .notEnoughAccountKeys)) →
          (n ≤ accounts.length → ∃ y, x = .ok y) →
          (∀ y, accountsNeeded t.toU8 ≤ accounts.length → Decides (f y) t' K) →
          Decides (x >>= f) ((decide (accounts.length < accountsNeeded t.toU8), .prog .notEnoughAccountKeys) :: t') K := by
        intro α β x f n t' K hn h1 h2 h3
        refine .step (fun h => ?_) fun h => ?_
        · rw [h1 (hn ▸ of_decide_eq_true h)]; rfl
        · have := of_decide_eq_false h
          obtain ⟨y, hy⟩ := h2 (by omega)
          exact .free hy (h3 y (by omega))
      cases t with
      | createMarket =>
        refine short rfl parse_short parse_enough fun a ha => ?_
        exact tryFromSlice_decides fun x hx => ⟨⟨.createMarket x, by unfold decodeParams; simp only [hx, Except.map]⟩, ha⟩
      | newOrder =>
        refine short rfl parse_short parse_enough fun a ha => ?_
        exact tryFromSlice_decides fun x hx => ⟨⟨.newOrder x, by unfold decodeParams; simp only [hx, Except.map]⟩, ha⟩
      | consumeEvents =>
        refine short rfl parseConsume_short parseConsume_enough fun a ha => ?_
        exact tryFromSlice_decides fun x hx => ⟨⟨.consumeEvents x, by unfold decodeParams; simp only [hx, Except.map]⟩, ha⟩
      | cancelOrder =>
        refine short rfl parse_short parse_enough fun a ha => ?_
        exact tryFromSlice_decides fun x hx => ⟨⟨.cancelOrder x, by unfold decodeParams; simp only [hx, Except.map]⟩, ha⟩
      | closeMarket =>
        refine short rfl parseClose_short parseClose_enough fun a ha => ?_
        exact .step (fun h => by cases h) fun _ => .done ⟨⟨.closeMarket, rfl⟩, ha⟩
      | massCancelOrders =>
        refine short rfl parse_short parse_enough fun a ha => ?_
        exact tryFromSlice_decides fun x hx => ⟨⟨.massCancelOrders x, by unfold decodeParams; simp only [hx, Except.map]⟩, ha⟩

end
end AOB
