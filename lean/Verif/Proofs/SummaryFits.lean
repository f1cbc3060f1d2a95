import Verif.Proofs.Dispatch
/-
The summaries returned by `process_instruction` fit in the fields of an `OrderSummary`.
-/
namespace AOB

section
variable {C : Type}

theorem u64Max_lt : u64Max < 256 ^ 8 := by decide

theorem fp32Div_getD_lt (a b : Nat) : (fp32Div a b).getD u64Max < 256 ^ 8 := by
  unfold fp32Div
  split
  · exact u64Max_lt
  · split <;> rename_i h
    · exact h
    · exact u64Max_lt

theorem summaryNotPosted_fits {p : NewOrderParams C} (hp : p.Fits) {b q : Nat} {s : OrderSummary}
    (h : summaryNotPosted p b q = .ok s) : s.Fits := by
  unfold summaryNotPosted at h
  obtain ⟨x, hx, h⟩ := bind_ok h
  obtain ⟨y, hy, h⟩ := bind_ok h
  obtain rfl := Except.ok.inj h
  obtain ⟨_, rfl⟩ := subU_ok_iff.1 hx
  obtain ⟨_, rfl⟩ := subU_ok_iff.1 hy
  exact ⟨fun _ h => (by cases h), Nat.lt_of_le_of_lt (Nat.sub_le _ _) hp.1, Nat.lt_of_le_of_lt (Nat.sub_le _ _) hp.2.1,
    Nat.pow_pos (by decide)⟩

theorem cancelIn_fits {b b' : OrderBook C} {id : Nat} {s : OrderSummary} (hb : b.Fits)
    (h : Market.cancelIn b id = .ok (s, b')) : s.Fits := by
  unfold Market.cancelIn at h
  obtain ⟨⟨r, sl⟩, hr, h⟩ := bind_ok h
  have hk := (Slab.removeByKey_kept (OrderBook.getTree_fits hb _) hr).2
  cases r with
  | none => cases h
  | some x =>
    obtain ⟨l, c⟩ := x
    dsimp only at h
    split at h
    · cases h
    · rename_i q hq
      obtain ⟨rfl, rfl⟩ := Prod.mk.inj (Except.ok.inj h)
      refine ⟨fun _ h => (by cases h), (hk l c rfl).2, ?_, Nat.pow_pos (by decide)⟩
      unfold fp32MulFloor at hq
      split at hq
      · rename_i hlt
        obtain rfl := Option.some.inj hq
        exact hlt
      · cases hq

theorem massCancelLoop_fits {ids : List Nat} : ∀ {b b' : OrderBook C} {x y x' y' : Nat}, x < 256 ^ 8 → y < 256 ^ 8 →
    Market.massCancelLoop ids x y b = .ok (x', y', b') → x' < 256 ^ 8 ∧ y' < 256 ^ 8 := by
  induction ids with
  | nil =>
    intro b b' x y x' y' hx hy h
    obtain ⟨rfl, e⟩ := Prod.mk.inj (Except.ok.inj h)
    obtain ⟨rfl, _⟩ := Prod.mk.inj e
    exact ⟨hx, hy⟩
  | cons id ids ih =>
    intro b b' x y x' y' hx hy h
    unfold Market.massCancelLoop at h
    obtain ⟨⟨r, s⟩, hr, h⟩ := bind_ok h
    cases r with
    | none => cases h
    | some z =>
      obtain ⟨l, c⟩ := z
      obtain ⟨b1, h1, h⟩ := bind_ok h
      obtain ⟨v, _, h⟩ := bind_ok h
      obtain ⟨q1, h2, h⟩ := bind_ok h
      obtain ⟨g1, rfl⟩ := addU64_ok_iff.1 h1
      obtain ⟨g2, rfl⟩ := addU64_ok_iff.1 h2
      exact ih g1 g2 h

theorem newOrder_fits [CallbackInfo C] {b b' : OrderBook C} {q q' : EventQueue C} {p : NewOrderParams C} {mb : Nat}
    {s : OrderSummary} (hq : q.Fits) (hb : b.Fits) (hp : p.Fits) (h : b.newOrder p q mb = .ok (s, b', q')) :
    s.Fits := by
  have hp0 := hp
  obtain ⟨p1, p2, p3, p4⟩ := hp
  unfold OrderBook.newOrder at h
  obtain ⟨st, hst, h⟩ := bind_ok h
  obtain ⟨k1, k2, k3, k4⟩ := matchLoop_kept p mb _ (st := MatchState.mk _ _ _ _ _) hb hq p1 p2 hst
  dsimp only at k1 k2 k3 k4 h
  split at h
  · obtain ⟨s', hs, h⟩ := bind_ok h
    obtain ⟨rfl, _⟩ := Prod.mk.inj (Except.ok.inj h)
    exact summaryNotPosted_fits hp0 hs
  · obtain ⟨⟨id, q1⟩, hid, h⟩ := bind_ok h
    obtain ⟨_, hidlt⟩ := EventQueue.genOrderId_kept k2.1 p3 hid
    obtain ⟨r, hr, h⟩ := bind_ok h
    cases r with
    | refused =>
      obtain ⟨s', hs, h⟩ := bind_ok h
      obtain ⟨rfl, _⟩ := Prod.mk.inj (Except.ok.inj h)
      exact summaryNotPosted_fits hp0 hs
    | posted hd s1 q2 =>
      obtain ⟨s2, hs2, h⟩ := bind_ok h
      obtain ⟨x1, _, h⟩ := bind_ok h
      split at h
      · cases h
      · obtain ⟨x2, _, h⟩ := bind_ok h
        obtain ⟨x3, h3, h⟩ := bind_ok h
        obtain ⟨x4, h4, h⟩ := bind_ok h
        obtain ⟨rfl, _⟩ := Prod.mk.inj (Except.ok.inj h)
        obtain ⟨_, rfl⟩ := subU_ok_iff.1 h3
        obtain ⟨_, rfl⟩ := subU_ok_iff.1 h4
        refine ⟨fun x hx => (Option.some.inj hx) ▸ hidlt, Nat.lt_of_le_of_lt (Nat.sub_le _ _) p1,
          Nat.lt_of_le_of_lt (Nat.sub_le _ _) p2, ?_⟩
        exact Nat.lt_of_le_of_lt (Nat.min_le_left _ _) (fp32Div_getD_lt _ _)

variable [Pod C] [CallbackInfo C] [Borsh C]

/-- Every summary returned fits in the fields it is serialized to. -/
theorem Ran.fits {env : Env} {w w' : World} {accounts : List Pubkey} {ix : Ix C} {r : Option OrderSummary}
    (h : Ran env w accounts ix r w') : ∀ s, r = some s → s.Fits := by
  intro s hs
  cases h with
  | create => cases hs
  | consume => cases hs
  | close => cases hs
  | newOrder hp _ h =>
    obtain rfl := Option.some.inj hs
    obtain ⟨_, m, m', hL, h, _⟩ := processNewOrder_ok h
    unfold Market.newOrder at h
    obtain ⟨t, _, h⟩ := bind_ok h
    split at h
    · cases h
    · split at h
      · cases h
      · obtain ⟨⟨s', b, q⟩, hh, e⟩ := bind_ok h
        obtain ⟨rfl, _⟩ := Prod.mk.inj (Except.ok.inj e)
        exact newOrder_fits hL.queue.fits hL.book.fits hp hh
  | cancel _ _ h =>
    obtain rfl := Option.some.inj hs
    obtain ⟨_, b, b', hL, h, _⟩ := processCancel_ok h
    exact cancelIn_fits hL.fits h
  | massCancel _ _ _ h =>
    obtain rfl := Option.some.inj hs
    obtain ⟨_, b, b', x, y, hL, hh, rfl, _⟩ := processMassCancel_ok h
    have := massCancelLoop_fits (Nat.pow_pos (by decide)) (Nat.pow_pos (by decide)) hh
    exact ⟨fun _ h => (by cases h), this.1, this.2, Nat.pow_pos (by decide)⟩

end
end AOB
