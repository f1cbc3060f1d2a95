import Verif.Proofs.Stale
/-
Which leaf slots a transaction writes a key into: at most one, and only the key of the order it posts.
-/
namespace AOB
variable {C : Type}

namespace Slab

/-- The key `k` was written into one used slot, all others are as before. -/
def Wrote (k : Nat) (s s' : Slab C) : Prop :=
  ∃ a, s.header.leafBumpIndex ≤ s'.header.leafBumpIndex ∧ (∀ i < s'.header.leafBumpIndex, i ≠ a → i < s.header.leafBumpIndex) ∧
    s'.leafNodes.map LeafNode.key = (s.leafNodes.map LeafNode.key).set a k

theorem Wrote.after {k : Nat} {s s' s'' : Slab C} (h : s.Wrote k s') (g : s'.SameMarks s'') : s.Wrote k s'' := by
  obtain ⟨a, h1, h2, h3⟩ := h
  exact ⟨a, g.1 ▸ h1, by rw [g.1]; exact h2, g.2.trans h3⟩

theorem Wrote.before {k : Nat} {s s' s'' : Slab C} (g : s.SameMarks s') (h : s'.Wrote k s'') : s.Wrote k s'' := by
  obtain ⟨a, h1, h2, h3⟩ := h
  refine ⟨a, g.1 ▸ h1, by rw [← g.1]; exact h2, ?_⟩
  rw [h3, g.2]

/-- No key is in two of the slots that have been used. -/
def Distinct (s : Slab C) : Prop :=
  ∀ i < s.header.leafBumpIndex, ∀ j < s.header.leafBumpIndex, ∀ k, (s.leafNodes.map LeafNode.key)[i]? = some k →
    (s.leafNodes.map LeafNode.key)[j]? = some k → i = j

theorem SameMarks.distinct {s s' : Slab C} (h : s.SameMarks s') (hd : s.Distinct) : s'.Distinct := by
  unfold Distinct
  rw [h.1, h.2]
  exact hd

theorem Wrote.distinct {k : Nat} {s s' : Slab C} (h : s.Wrote k s') (hd : s.Distinct) (hm : s.Marked (· ≠ k)) :
    s'.Distinct := by
  obtain ⟨a, h1, h2, h3⟩ := h
  have hne : ∀ i < s.header.leafBumpIndex, (s.leafNodes.map LeafNode.key)[i]? ≠ some k := by
    intro i hi e
    rw [List.getElem?_map] at e
    obtain ⟨l, hl, e⟩ := Option.map_eq_some_iff.1 e
    exact hm i hi l hl e
  intro i hi j hj x hx hy
  rw [h3] at hx hy
  rcases get_set_cases hx with ⟨rfl, rfl⟩ | ⟨ha, hx'⟩ <;> rcases get_set_cases hy with ⟨e, rfl⟩ | ⟨hb, hy'⟩
  · rfl
  · exact absurd hy' (hne j (h2 j hj (Ne.symm hb)))
  · rw [e] at hx'
    exact absurd hx' (hne i (h2 i hi (Ne.symm ha)))
  · exact hd i (h2 i hi (Ne.symm ha)) j (h2 j hj (Ne.symm hb)) x hx' hy'

/-- A key other than the one written was in its slot before. -/
theorem Wrote.was {k : Nat} {s s' : Slab C} (h : s.Wrote k s') {i x : Nat} (hi : i < s'.header.leafBumpIndex)
    (hx : (s'.leafNodes.map LeafNode.key)[i]? = some x) (hne : x ≠ k) :
    i < s.header.leafBumpIndex ∧ (s.leafNodes.map LeafNode.key)[i]? = some x := by
  obtain ⟨a, h1, h2, h3⟩ := h
  rw [h3] at hx
  rcases get_set_cases hx with ⟨e, -⟩ | ⟨ha, hx⟩
  · exact absurd e hne
  · exact ⟨h2 i hi (Ne.symm ha), hx⟩

theorem allocate_wrote {s s1 : Slab C} {k : Nat} (ha : s.allocateLeaf = .ok (k, s1)) (l : LeafNode) :
    Wrote l.key s { s1 with leafNodes := s1.leafNodes.set k l } := by
  unfold allocateLeaf at ha
  split at ha
  · split at ha
    · cases ha
    · obtain ⟨b, hb, ha⟩ := bind_ok ha
      obtain ⟨_, rfl⟩ := addU32_ok_iff.1 hb
      obtain ⟨rfl, rfl⟩ := Prod.mk.inj (Except.ok.inj ha)
      refine ⟨s.header.leafBumpIndex, ?_, ?_, ?_⟩
      · dsimp only; omega
      · intro i hi hne; dsimp only at hi; omega
      · dsimp only; rw [List.map_set]
  · obtain ⟨f, hi, ha⟩ := bind_ok ha
    obtain ⟨n, hn, ha⟩ := bind_ok ha
    obtain ⟨rfl, rfl⟩ := Prod.mk.inj (Except.ok.inj ha)
    exact ⟨_, Nat.le_refl _, fun i hi _ => hi, by dsimp only; rw [List.map_set]⟩

theorem insertLeaf_wrote {s s' : Slab C} {l : LeafNode} {r : Nat × Option LeafNode}
    (h : s.insertLeaf l = .ok (r, s')) : s.Wrote l.key s' := by
  unfold insertLeaf at h
  split at h
  · obtain ⟨⟨k, s1⟩, ha, h⟩ := bind_ok h
    obtain ⟨ls, hls, h⟩ := bind_ok h
    obtain ⟨_, rfl⟩ := setIdx_ok_iff.1 hls
    obtain ⟨c, hc, h⟩ := bind_ok h
    obtain ⟨_, rfl⟩ := Prod.mk.inj (Except.ok.inj h)
    exact allocate_wrote (mapIoSlabFull_ok ha) l
  · obtain ⟨stop, hstop, h⟩ := bind_ok h
    cases stop with
    | clobber root =>
      obtain ⟨o, ho, h⟩ := bind_ok h
      obtain ⟨ls, hls, h⟩ := bind_ok h
      obtain ⟨_, rfl⟩ := setIdx_ok_iff.1 hls
      obtain ⟨_, rfl⟩ := Prod.mk.inj (Except.ok.inj h)
      exact ⟨root, Nat.le_refl _, fun i hi _ => hi, by dsimp only; rw [List.map_set]⟩
    | split root parent shared =>
      obtain ⟨mask, hmk, h⟩ := bind_ok h
      obtain ⟨⟨k, s1⟩, ha, h⟩ := bind_ok h
      obtain ⟨ls, hls, h⟩ := bind_ok h
      obtain ⟨_, rfl⟩ := setIdx_ok_iff.1 hls
      have h2 := allocate_wrote (mapIoSlabFull_ok ha) l
      obtain ⟨⟨ih, s3⟩, ha3, h⟩ := bind_ok h
      have h3 := h2.after (allocateInnerNode_marks (unwrapIo_ok ha3))
      obtain ⟨n, hn, h⟩ := bind_ok h
      obtain ⟨ls4, hls4, h⟩ := bind_ok h
      obtain ⟨s5, hs5, h⟩ := bind_ok h
      have h4 := relink_marks hs5
      have h5 := h3.after (s'' := s5) ⟨h4.1, h4.2⟩
      obtain ⟨c, hc, h⟩ := bind_ok h
      obtain ⟨_, rfl⟩ := Prod.mk.inj (Except.ok.inj h)
      exact h5

end Slab

/-- An order that rests is found in a used slot, which holds its id, its size and its callback information. -/
theorem SRep.slot {s : Slab C} {os : List (Order C)} (hs : SRep s os) {o : Order C} (ho : o ∈ os) (hk : o.id < 2 ^ 128) :
    ∃ i, s.findByKey o.id = .ok (some i) ∧ i < s.header.leafBumpIndex ∧ s.leafNodes[i]? = some ⟨o.id, o.qty⟩ ∧
      s.callbackInfos[i]? = some o.cb := by
  have huniq := fun a ha => hs.unique (a := a) (b := o) ha ho
  obtain ⟨es, ⟨ot, hr, rfl⟩, rfl⟩ := hs
  obtain ⟨free, -, -, hp, -⟩ := hr.leafAlloc
  obtain ⟨e0, he0, rfl⟩ := List.mem_map.1 ho
  rcases hr.findByKey hk with ⟨e, he, hek, hf⟩ | ⟨hno, _⟩
  · refine ⟨e.slot, hf, List.mem_range.1 (hp.mem_iff.1 (List.mem_append_left _ (List.mem_map_of_mem he))), ?_⟩
    have hm := (hr.ents_mem e he).2
    have e1 := huniq e.order (List.mem_map_of_mem he) hek
    rw [← e1]
    exact hm
  · exact absurd rfl (hno e0 he0)

/-- Both sides have the same keys in their slots. -/
def OrderBook.SameMarks (b b' : OrderBook C) : Prop := ∀ sd, (b.getTree sd).SameMarks (b'.getTree sd)

theorem OrderBook.SameMarks.set {b b' : OrderBook C} (h : b.SameMarks b') {sd : Side} {s : Slab C}
    (hs : (b'.getTree sd).SameMarks s) : b.SameMarks (b'.setTree sd s) := by
  intro sd'
  cases sd <;> cases sd' <;> first | exact (h _).trans hs | exact h .bid | exact h .ask

theorem OrderBook.SameMarks.set_get {b b' : OrderBook C} (h : b.SameMarks b') {sd : Side} {s s' : Slab C}
    (h0 : (b'.getTree sd).SameMarks s) (hs : s.SameMarks s') : b.SameMarks (b'.setTree sd s') :=
  h.set (h0.trans hs)

variable [CallbackInfo C]

theorem matchLoop_sameMarks (p : NewOrderParams C) (mb : Nat) {b : OrderBook C} (n : Nat) : ∀ {st st' : MatchState C},
    b.SameMarks st.book → matchLoop p mb n st = .ok st' → b.SameMarks st'.book := by
  induction n with
  | zero =>
    intro st st' hb h
    obtain rfl := Except.ok.inj h
    exact hb
  | succ n ih =>
    intro st st' hb h
    unfold matchLoop at h
    obtain ⟨bbo, hbbo, h⟩ := bind_ok h
    cases bbo with
    | none => obtain rfl := Except.ok.inj h; exact hb
    | some hd =>
      obtain ⟨bo, hbo, h⟩ := bind_ok h
      dsimp only at h
      split at h
      · obtain rfl := Except.ok.inj h; exact hb
      split at h
      · obtain rfl := Except.ok.inj h; exact hb
      split at h
      · cases h
      split at h
      · obtain rfl := Except.ok.inj h; exact hb
      obtain ⟨wst, hwst, h⟩ := bind_ok h
      split at h
      · split at h
        · cases h
        obtain ⟨c, hc, h⟩ := bind_ok h
        obtain ⟨q1, hq1, h⟩ := bind_ok h
        obtain ⟨⟨r, s1⟩, hr, h⟩ := bind_ok h
        obtain ⟨x, hx, h⟩ := bind_ok h
        exact ih (st := { st with book := _, queue := _, crossed := _ }) (hb.set (Slab.removeByKey_marks hr)) h
      · obtain ⟨c, hc, h⟩ := bind_ok h
        obtain ⟨q1, hq1, h⟩ := bind_ok h
        obtain ⟨left, hleft, h⟩ := bind_ok h
        obtain ⟨s1, hs1, h⟩ := bind_ok h
        have hks := Slab.setBaseQuantity_marks hs1
        obtain ⟨br, hbr, h⟩ := bind_ok h
        obtain ⟨qr, hqr, h⟩ := bind_ok h
        split at h
        · obtain ⟨⟨r, s2⟩, hr, h⟩ := bind_ok h
          obtain ⟨⟨x, c2⟩, hx, h⟩ := bind_ok h
          obtain ⟨q2, hq2, h⟩ := bind_ok h
          exact ih (st := MatchState.mk _ _ _ _ _) (hb.set (hks.trans (Slab.removeByKey_marks hr))) h
        · exact ih (st := MatchState.mk _ _ _ _ _) (hb.set hks) h

omit [CallbackInfo C] in
theorem postLeaf_wrote {sd : Side} {lp : Nat} {s s' : Slab C} {q q' : EventQueue C} {l : LeafNode} {k : Nat}
    (h : postLeaf sd lp s q l = .ok (.posted k s' q')) : s.Wrote l.key s' := by
  unfold postLeaf at h
  split at h
  · obtain ⟨cand, _, h⟩ := bind_ok h
    obtain ⟨cd, _, h⟩ := bind_ok h
    obtain ⟨cl, hcl, h⟩ := bind_ok h
    dsimp only at h
    split at h
    · obtain ⟨⟨r, s1⟩, hr, h⟩ := bind_ok h
      obtain ⟨⟨o, c⟩, ho, h⟩ := bind_ok h
      obtain ⟨q1, hq1, h⟩ := bind_ok h
      obtain ⟨⟨h2, s2⟩, hs2, h⟩ := bind_ok h
      obtain ⟨o2, hs2⟩ := unwrapInsert_ok hs2
      injection Except.ok.inj h with e1 e2 e3
      subst e2
      exact Slab.Wrote.before (Slab.removeByKey_marks hr) (Slab.insertLeaf_wrote hs2)
    · cases h
  · obtain ⟨⟨h2, s2⟩, hs2, h⟩ := bind_ok h
    obtain ⟨o2, hs2⟩ := unwrapInsert_ok hs2
    injection Except.ok.inj h with e1 e2 e3
    subst e2
    exact Slab.insertLeaf_wrote hs2

/-- A transaction leaves the keys of a side as they are or writes one of those in `N`. -/
def OrderBook.Writes (N : Nat → Prop) (b b' : OrderBook C) : Prop :=
  ∀ sd, (b.getTree sd).SameMarks (b'.getTree sd) ∨ ∃ k, N k ∧ (b.getTree sd).Wrote k (b'.getTree sd)

theorem newOrder_writes {b b' : OrderBook C} {q q' : EventQueue C} {p : NewOrderParams C} {mb : Nat} {sum : OrderSummary}
    (h : b.newOrder p q mb = .ok (sum, b', q')) : b.Writes (fun k => sum.postedOrderId = some k) b' := by
  unfold OrderBook.newOrder at h
  obtain ⟨st, hst, h⟩ := bind_ok h
  have k1 := matchLoop_sameMarks p mb (b := b) _ (st := MatchState.mk _ _ _ _ _) (fun sd => Slab.SameMarks.refl _) hst
  dsimp only at h
  split at h
  · obtain ⟨s, _, h⟩ := bind_ok h
    obtain ⟨_, e⟩ := Prod.mk.inj (Except.ok.inj h)
    obtain ⟨rfl, rfl⟩ := Prod.mk.inj e
    exact fun sd => .inl (k1 sd)
  · obtain ⟨⟨id, q1⟩, hid, h⟩ := bind_ok h
    obtain ⟨r, hr, h⟩ := bind_ok h
    cases r with
    | refused =>
      obtain ⟨s, _, h⟩ := bind_ok h
      obtain ⟨_, e⟩ := Prod.mk.inj (Except.ok.inj h)
      obtain ⟨rfl, rfl⟩ := Prod.mk.inj e
      exact fun sd => .inl (k1 sd)
    | posted hd s1 q2 =>
      obtain ⟨s2, hs2, h⟩ := bind_ok h
      obtain ⟨x1, _, h⟩ := bind_ok h
      split at h
      · cases h
      · obtain ⟨x2, _, h⟩ := bind_ok h
        obtain ⟨x3, _, h⟩ := bind_ok h
        obtain ⟨x4, _, h⟩ := bind_ok h
        obtain ⟨e0, e⟩ := Prod.mk.inj (Except.ok.inj h)
        obtain ⟨rfl, rfl⟩ := Prod.mk.inj e
        subst e0
        have hw := (Slab.Wrote.before (k1 p.side) (postLeaf_wrote hr)).after (Slab.setCallbackInfo_marks hs2)
        intro sd
        cases hps : p.side <;> cases sd <;> rw [hps] at hw <;>
          first | exact .inr ⟨id, rfl, hw⟩ | exact .inl (k1 _)

omit [CallbackInfo C] in
theorem cancelIn_sameMarks {b b' : OrderBook C} {id : Nat} {sum : OrderSummary}
    (h : Market.cancelIn b id = .ok (sum, b')) : b.SameMarks b' := by
  unfold Market.cancelIn at h
  obtain ⟨⟨r, s⟩, hr, h⟩ := bind_ok h
  cases r with
  | none => cases h
  | some x =>
    obtain ⟨l, c⟩ := x
    dsimp only at h
    split at h
    · cases h
    · obtain ⟨_, rfl⟩ := Prod.mk.inj (Except.ok.inj h)
      exact OrderBook.SameMarks.set (fun sd => Slab.SameMarks.refl _) (Slab.removeByKey_marks hr)

omit [CallbackInfo C] in
theorem massCancelLoop_sameMarks {ids : List Nat} {b0 : OrderBook C} : ∀ {b b' : OrderBook C} {x y x' y' : Nat},
    b0.SameMarks b → Market.massCancelLoop ids x y b = .ok (x', y', b') → b0.SameMarks b' := by
  induction ids with
  | nil =>
    intro b b' x y x' y' hb h
    obtain ⟨_, e⟩ := Prod.mk.inj (Except.ok.inj h)
    obtain ⟨_, rfl⟩ := Prod.mk.inj e
    exact hb
  | cons id ids ih =>
    intro b b' x y x' y' hb h
    unfold Market.massCancelLoop at h
    obtain ⟨⟨r, s⟩, hr, h⟩ := bind_ok h
    cases r with
    | none => cases h
    | some z =>
      obtain ⟨l, c⟩ := z
      obtain ⟨_, _, h⟩ := bind_ok h
      obtain ⟨_, _, h⟩ := bind_ok h
      obtain ⟨_, _, h⟩ := bind_ok h
      exact ih (hb.set (Slab.removeByKey_marks hr)) h

/-- One transaction writes at most the id it posts. -/
theorem step_writes (m : Market C) (i : Instr C) :
    m.book.Writes (fun k => ∃ p s m', i = .newOrder p ∧ m.newOrder p = .ok (s, m') ∧ s.postedOrderId = some k)
      (m.step i).book := by
  unfold Market.step
  split
  · rename_i r m' he
    cases i with
    | newOrder p =>
      obtain ⟨⟨s, m1⟩, h1, h2⟩ := bind_ok he
      obtain ⟨rfl, rfl⟩ := Prod.mk.inj (Except.ok.inj h2)
      have h0 := h1
      unfold Market.newOrder at h1
      obtain ⟨_, _, h1⟩ := bind_ok h1
      split at h1
      · cases h1
      split at h1
      · cases h1
      obtain ⟨⟨s', b', q'⟩, h3, h2⟩ := bind_ok h1
      obtain ⟨rfl, rfl⟩ := Prod.mk.inj (Except.ok.inj h2)
      intro sd
      rcases newOrder_writes h3 sd with h | ⟨k, hk, h⟩
      · exact .inl h
      · exact .inr ⟨k, ⟨p, _, _, rfl, h0, hk⟩, h⟩
    | cancelOrder id =>
      obtain ⟨⟨s, m1⟩, h1, h2⟩ := bind_ok he
      obtain ⟨rfl, rfl⟩ := Prod.mk.inj (Except.ok.inj h2)
      obtain ⟨⟨s', b'⟩, h3, h2⟩ := bind_ok h1
      obtain ⟨rfl, rfl⟩ := Prod.mk.inj (Except.ok.inj h2)
      exact fun sd => .inl (cancelIn_sameMarks h3 sd)
    | massCancelOrders ids =>
      obtain ⟨⟨s, m1⟩, h1, h2⟩ := bind_ok he
      obtain ⟨rfl, rfl⟩ := Prod.mk.inj (Except.ok.inj h2)
      obtain ⟨⟨x, y, b'⟩, h3, h2⟩ := bind_ok h1
      obtain ⟨rfl, rfl⟩ := Prod.mk.inj (Except.ok.inj h2)
      exact fun sd => .inl (massCancelLoop_sameMarks (fun sd => Slab.SameMarks.refl _) h3 sd)
    | consumeEvents n =>
      obtain ⟨m1, h1, h2⟩ := bind_ok he
      obtain ⟨rfl, rfl⟩ := Prod.mk.inj (Except.ok.inj h2)
      obtain ⟨q', h1, h2⟩ := bind_ok h1
      obtain rfl := Except.ok.inj h2
      exact fun sd => .inl (Slab.SameMarks.refl _)
  · exact fun sd => .inl (Slab.SameMarks.refl _)

end AOB
