import Verif.Proofs.Wasm
import Verif.Proofs.WasmBytes
import Verif.Props.Client
/-
The wasm functions of the client (C79).
-/
namespace AOB
namespace Wasm
open Js (Price levels slabKey)

section
variable {C : Type} [Pod C] [CallbackInfo C] [Borsh C] {env : Env} {R : Pubkey → Prop} {w : World} {k : Pubkey}

/-- C79. The functions of `js/wasm` cannot read the program's accounts: they panic on every slab of every market, as its
tag is not one they know. -/
theorem C79_program_slabs (hw : OnChain env C R w) (hR : ¬ R k) (hM : IsMarket env w k) (side : Side)
    (callbackInfoLen slotSize depth fuel : Nat) (flag : Bool) :
    findMinMax flag (w (slabKey (stateAt w k) side)).data callbackInfoLen slotSize fuel = .error .panic ∧
    findL2Depth (w (slabKey (stateAt w k) side)).data callbackInfoLen slotSize depth flag fuel = .error .panic := by
  have hl := hw.inv.link k hR hM
  have h : readHeader (w (slabKey (stateAt w k) side)).data = .error .panic := by
    unfold readHeader
    cases side with
    | bid => rw [show slabKey (stateAt w k) .bid = (stateAt w k).bids from rfl, hl.tagB]; exact if_pos (.inl (by decide))
    | ask => rw [show slabKey (stateAt w k) .ask = (stateAt w k).asks from rfl, hl.tagA]; exact if_pos (.inl (by decide))
  unfold findMinMax findL2Depth
  rw [h]
  exact ⟨rfl, rfl⟩

end

variable {data : Bytes} {callbackInfoLen slotSize root n : Nat} {os : List (Order Bytes)}

theorem getNode_bytes {key : Nat} {node : Node} (hn : node.Fits callbackInfoLen) (front pad back : Bytes)
    (hf : front.length = 65 + key * slotSize) (hl : node.bytes.length + pad.length = slotSize) :
    getNode (front ++ node.bytes ++ pad ++ back) callbackInfoLen slotSize key = .ok node := by
  unfold getNode
  have e : Js.slice (front ++ node.bytes ++ pad ++ back) (65 + key * slotSize) (65 + key * slotSize + slotSize) =
      node.bytes ++ pad := by
    unfold Js.slice
    rw [← hf, Nat.add_sub_cancel_left, List.append_assoc, List.append_assoc, List.drop_left, ← List.append_assoc]
    exact slice_head _ _ _ (by rw [List.length_append, hl])
  dsimp only
  rw [e, read_bytes hn, if_pos (by simp only [List.length_append]; omega)]

/-- C79. What their own format is: a header of 65 bytes, in it a tag (at most 4), the numbers of slots used and free, the first free slot,
the root and the number of orders; then the slots. A leaf is a 2, 16 bytes of order id, the callback info and 8 bytes of
quantity; an inner node a 1, the prefix length, the key and the two children. -/
theorem C79_layout (tag : UInt8) (bump freeLen freeHead : Nat) (market slots : Bytes) (ht : tag.toNat ≤ 4)
    (hm : market.length = 32) (hr : root < 2 ^ 32) (hn : n < 2 ^ 64) :
    readHeader ([tag] ++ toLE 8 bump ++ toLE 8 freeLen ++ toLE 4 freeHead ++ toLE 4 root ++ toLE 8 n ++ market ++ slots) =
      .ok ⟨root, n⟩ ∧
    (∀ (key id qty : Nat) (cb front pad back : Bytes), id < 2 ^ 128 → qty < 2 ^ 64 → cb.length = callbackInfoLen →
      front.length = 65 + key * slotSize → 25 + callbackInfoLen + pad.length = slotSize →
      getNode (front ++ ([2] ++ toLE 16 id ++ cb ++ toLE 8 qty) ++ pad ++ back) callbackInfoLen slotSize key =
        .ok (.leaf id cb qty)) ∧
    (∀ (key pl k c0 c1 : Nat) (front pad back : Bytes), pl < 2 ^ 32 → k < 2 ^ 128 → c0 < 2 ^ 32 → c1 < 2 ^ 32 →
      front.length = 65 + key * slotSize → 29 + pad.length = slotSize →
      getNode (front ++ ([1] ++ toLE 4 pl ++ toLE 16 k ++ toLE 4 c0 ++ toLE 4 c1) ++ pad ++ back) callbackInfoLen slotSize key =
        .ok (.inner pl k c0 c1)) := by
  refine ⟨?_, ?_, ?_⟩
  · have p4 : (2 : Nat) ^ 32 = 256 ^ 4 := by decide
    have p8 : (2 : Nat) ^ 64 = 256 ^ 8 := by decide
    have e : [tag] ++ toLE 8 bump ++ toLE 8 freeLen ++ toLE 4 freeHead ++ toLE 4 root ++ toLE 8 n ++ market ++ slots =
      ([tag] ++ toLE 8 bump ++ toLE 8 freeLen ++ toLE 4 freeHead) ++ (toLE 4 root ++ (toLE 8 n ++ (market ++ slots))) := by
      simp only [List.append_assoc]
    generalize hfr : [tag] ++ toLE 8 bump ++ toLE 8 freeLen ++ toLE 4 freeHead = front at e
    have hlen : front.length = 21 := by rw [← hfr]; simp
    rw [e]
    have h0 : (front ++ (toLE 4 root ++ (toLE 8 n ++ (market ++ slots))))[0]? = some tag := by rw [← hfr]; rfl
    unfold readHeader
    rw [h0]
    dsimp only
    rw [if_neg]
    · rw [field_skip front _ 21 _ (by omega), field_skip front _ 25 _ (by omega), hlen, field_head _ (p4 ▸ hr),
        field_skip _ _ _ _ (by simp), toLE_length, field_head _ (p8 ▸ hn)]
    · simp only [List.length_append, hlen, toLE_length, hm]
      omega
  · intro key id qty cb front pad back h1 h2 h3 hf hl
    have := getNode_bytes (node := .leaf id cb qty) (callbackInfoLen := callbackInfoLen) (slotSize := slotSize) (key := key)
      ⟨h1, h3, h2⟩ front pad back hf (by simp [Node.bytes]; omega)
    simpa [Node.bytes] using this
  · intro key pl k c0 c1 front pad back h1 h2 h3 h4 hf hl
    have := getNode_bytes (node := .inner pl k c0 c1) (callbackInfoLen := callbackInfoLen) (slotSize := slotSize) (key := key)
      ⟨h1, h2, h3, h4⟩ front pad back hf (by simp [Node.bytes]; omega)
    simpa [Node.bytes] using this

/-- C79. They panic on everything that is shorter than such a header or has another tag, whatever it is. -/
theorem C79_refused (h : data.length < 65 ∨ ∃ t, data[0]? = some t ∧ 4 < t.toNat) (callbackInfoLen slotSize depth fuel : Nat)
    (flag : Bool) : findMinMax flag data callbackInfoLen slotSize fuel = .error .panic ∧
    findL2Depth data callbackInfoLen slotSize depth flag fuel = .error .panic := by
  have hh : readHeader data = .error .panic := by
    unfold readHeader
    split
    · rfl
    · rename_i t ht
      refine if_pos ?_
      rcases h with h | ⟨t', h1, h2⟩
      · exact .inr h
      · rw [ht] at h1; cases h1; exact .inl h2
  unfold findMinMax findL2Depth
  rw [hh]
  exact ⟨rfl, rfl⟩

example := C79_refused (data := List.replicate 64 0) (.inl (by simp)) 32 100 5 10 true
example := C79_refused (data := 5 :: List.replicate 100 0) (.inr ⟨5, rfl, by decide⟩) 32 100 5 10 true

/-- C79. In a slab without orders they find nothing. -/
theorem C79_empty (hh : readHeader data = .ok ⟨root, 0⟩) (callbackInfoLen slotSize depth fuel : Nat) (flag : Bool) :
    findMinMax flag data callbackInfoLen slotSize fuel = .ok none ∧
    findL2Depth data callbackInfoLen slotSize depth flag fuel = .ok [] := by
  unfold findMinMax findL2Depth
  rw [hh]
  exact ⟨rfl, rfl⟩

theorem readHeader_error {e : Err} (h : readHeader data = .error e) : e = .panic := by
  unfold readHeader at h
  repeat' split at h
  all_goals first | rfl | (cases h; rfl) | cases h

theorem getNode_error {cl sl key : Nat} {e : Err} (h : getNode data cl sl key = .error e) : e = .panic := by
  unfold getNode at h
  dsimp only at h
  repeat' split at h
  all_goals first | rfl | (cases h; rfl) | cases h

theorem minMaxLoop_error {cl sl : Nat} {max : Bool} {e : Err} : ∀ {fuel k : Nat},
    minMaxLoop (getNode data cl sl) max fuel k = .error e → e = .panic ∨ e = .diverge
  | 0, _, h => by cases h; exact .inr rfl
  | fuel + 1, k, h => by
    unfold minMaxLoop at h
    cases hg : getNode data cl sl k with
    | error e' =>
      rw [hg] at h
      cases h
      exact .inl (getNode_error hg)
    | ok n =>
      rw [hg] at h
      dsimp only [Bind.bind, Except.bind] at h
      split at h
      · exact minMaxLoop_error h
      · cases h

theorem l2Loop_error {cl sl depth : Nat} {inc : Bool} {e : Err} : ∀ {fuel : Nat} {stack : List Nat} {result : List Js.Price},
    l2Loop (getNode data cl sl) depth inc fuel stack result = .error e → e = .panic ∨ e = .diverge
  | 0, _, _, h => by cases h; exact .inr rfl
  | fuel + 1, stack, result, h => by
    unfold l2Loop at h
    split at h
    · cases h
    · split at h
      · cases h
      · rename_i k stack
        cases hg : getNode data cl sl k with
        | error e' =>
          rw [hg] at h
          cases h
          exact .inl (getNode_error hg)
        | ok n =>
          rw [hg] at h
          dsimp only [Bind.bind, Except.bind] at h
          split at h
          · exact l2Loop_error h
          · split at h
            · split at h
              · unfold addU64 at h
                split_ifs at h
                · exact l2Loop_error h
                · cases h; exact .inl rfl
              · exact l2Loop_error h
            · exact l2Loop_error h
          · cases h; exact .inl rfl

/-- C79. Whatever bytes they are given: where they end without an answer, they panic; they return no error. -/
theorem C79_only_panics {callbackInfoLen slotSize depth fuel : Nat} {flag : Bool} {e : Err} :
    (findMinMax flag data callbackInfoLen slotSize fuel = .error e → e = .panic ∨ e = .diverge) ∧
    (findL2Depth data callbackInfoLen slotSize depth flag fuel = .error e → e = .panic ∨ e = .diverge) := by
  unfold findMinMax findL2Depth
  cases hh : readHeader data with
  | error e' => exact ⟨fun h => by cases h; exact .inl (readHeader_error hh), fun h => by cases h; exact .inl (readHeader_error hh)⟩
  | ok hd =>
    dsimp only [Bind.bind, Except.bind]
    refine ⟨fun h => ?_, fun h => ?_⟩
    · split_ifs at h
      split at h
      · rename_i e' hl
        cases h
        exact minMaxLoop_error hl
      · cases h
    · split_ifs at h
      exact l2Loop_error h

/-- C79. They panic if the slot of the root is not within the data, or holds a kind of node they do not know, or a leaf that
does not fit; `find_l2_depth` also if it holds none, or a free one. -/
theorem C79_bad_root (hh : readHeader data = .ok ⟨root, n⟩) (hn : n ≠ 0) (callbackInfoLen slotSize fuel : Nat) (flag : Bool) :
    (data.length < 65 + root * slotSize + slotSize ∨ slotSize = 0 ∨
      (∃ t, data[65 + root * slotSize]? = some t ∧ (4 < t.toNat ∨ t.toNat = 2 ∧ slotSize < 25 + callbackInfoLen)) →
      findMinMax flag data callbackInfoLen slotSize (fuel + 1) = .error .panic ∧
      ∀ depth, depth ≠ 0 → findL2Depth data callbackInfoLen slotSize depth flag (fuel + 1) = .error .panic) ∧
    ((∃ t, data[65 + root * slotSize]? = some t ∧ (t.toNat = 0 ∨ t.toNat = 3 ∨ t.toNat = 4)) →
      ∀ depth, depth ≠ 0 → findL2Depth data callbackInfoLen slotSize depth flag (fuel + 1) = .error .panic) := by
  have hmm : ∀ {e : Err}, getNode data callbackInfoLen slotSize root = .error e →
      findMinMax flag data callbackInfoLen slotSize (fuel + 1) = .error .panic := by
    intro e hg
    obtain rfl := getNode_error hg
    unfold findMinMax
    rw [hh]
    dsimp only [Bind.bind, Except.bind]
    rw [if_neg hn]
    unfold minMaxLoop
    rw [hg]
    rfl
  have hl2 : ∀ {e : Err}, getNode data callbackInfoLen slotSize root = .error e → ∀ depth, depth ≠ 0 →
      findL2Depth data callbackInfoLen slotSize depth flag (fuel + 1) = .error .panic := by
    intro e hg depth hd
    obtain rfl := getNode_error hg
    unfold findL2Depth
    rw [hh]
    dsimp only [Bind.bind, Except.bind]
    rw [if_neg hn]
    unfold l2Loop
    rw [if_neg (by simpa using hd.symm)]
    dsimp only
    rw [hg]
    rfl
  have hfirst : ∀ {t : UInt8}, data[65 + root * slotSize]? = some t → slotSize ≠ 0 →
      (Js.slice data (65 + root * slotSize) (65 + root * slotSize + slotSize))[0]? = some t := by
    intro t ht hs
    simp only [Js.slice, List.getElem?_drop, List.getElem?_take]
    rw [if_pos (by omega), Nat.add_zero]
    exact ht
  constructor
  · intro hb
    have : ∃ e, getNode data callbackInfoLen slotSize root = .error e := by
      unfold getNode
      dsimp only
      split
      · rename_i hfit
        by_cases hs : slotSize = 0
        · subst hs
          have : Js.slice data (65 + root * 0) (65 + root * 0 + 0) = [] := by
            simp [Js.slice]
          rw [this]
          exact ⟨_, rfl⟩
        · rcases hb with hb | hb | ⟨t, ht, hb⟩
          · omega
          · exact absurd hb hs
          · have h0 := hfirst ht hs
            have hlen : (Js.slice data (65 + root * slotSize) (65 + root * slotSize + slotSize)).length = slotSize := by
              simp only [Js.slice, List.length_drop, List.length_take]; omega
            unfold readNode
            rw [h0]
            dsimp only
            rcases hb with hb | ⟨hb, hsz⟩
            · have hne : ∀ k : UInt8, k.toNat ≤ 4 → t ≠ k := by
                intro k hk he; subst he; omega
              rw [if_neg (hne 0 (by decide)), if_neg (hne 1 (by decide)), if_neg (hne 2 (by decide)),
                if_neg (hne 3 (by decide)), if_neg (hne 4 (by decide))]
              exact ⟨_, rfl⟩
            · obtain rfl : t = 2 := UInt8.toNat_inj.1 hb
              rw [if_neg (by decide), if_neg (by decide), if_pos rfl, hlen, if_pos (by omega)]
              exact ⟨_, rfl⟩
      · exact ⟨_, rfl⟩
    obtain ⟨e, he⟩ := this
    exact ⟨hmm he, hl2 he⟩
  · rintro ⟨t, ht, hb⟩ depth hd
    cases hg : getNode data callbackInfoLen slotSize root with
    | error e => exact hl2 hg depth hd
    | ok nd =>
      have hnd : (∀ p k c0 c1, nd ≠ .inner p k c0 c1) ∧ ∀ k cb q, nd ≠ .leaf k cb q := by
        unfold getNode at hg
        dsimp only at hg
        split at hg
        · split at hg
          · rename_i n' hr
            cases hg
            by_cases hs : slotSize = 0
            · subst hs
              have : Js.slice data (65 + root * 0) (65 + root * 0 + 0) = [] := by
                simp [Js.slice]
              rw [this] at hr
              cases hr
            · unfold readNode at hr
              rw [hfirst ht hs] at hr
              dsimp only at hr
              have h1 : t ≠ 1 := by rintro rfl; revert hb; decide
              have h2 : t ≠ 2 := by rintro rfl; revert hb; decide
              rw [if_neg h1, if_neg h2] at hr
              split_ifs at hr <;> (cases hr; exact ⟨fun _ _ _ _ h => (by cases h), fun _ _ _ h => (by cases h)⟩)
          · cases hg
        · cases hg
      unfold findL2Depth
      rw [hh]
      dsimp only [Bind.bind, Except.bind]
      rw [if_neg hn]
      unfold l2Loop
      rw [if_neg (by simpa using hd.symm)]
      dsimp only
      rw [hg]
      dsimp only [Bind.bind, Except.bind]
      split
      · exact absurd rfl (hnd.1 _ _ _ _)
      · exact absurd rfl (hnd.2 _ _ _)
      · rfl

/-- A header with one order at slot 2, and no slots; and with a free slot as root. -/
example := C79_bad_root (data := [3] ++ toLE 8 0 ++ toLE 8 0 ++ toLE 4 0 ++ toLE 4 2 ++ toLE 8 1 ++ List.replicate 32 0) (root := 2) (n := 1)
  (by decide +kernel) (by decide) 32 57 10 true |>.1 (.inl (by decide +kernel))
example := C79_bad_root (data := [3] ++ toLE 8 0 ++ toLE 8 0 ++ toLE 4 0 ++ toLE 4 0 ++ toLE 8 1 ++ List.replicate 32 0 ++ 3 :: List.replicate 60 0)
  (root := 0) (n := 1) (by decide +kernel) (by decide) 32 57 10 true |>.2 ⟨3, by decide +kernel, by decide⟩

/-- C79. On a tree of their own format, `find_min` and `find_max` end and give the slot of the first and of the last
order. -/
theorem C79_min_max (hh : readHeader data = .ok ⟨root, n⟩) (hn : n ≠ 0)
    (ht : Holds (getNode data callbackInfoLen slotSize) root os) (max : Bool) :
    ∃ slot o, (if max then os.getLast? else os.head?) = some o ∧
      getNode data callbackInfoLen slotSize slot = .ok (.leaf o.id o.cb o.qty) ∧
      ∃ F, ∀ fuel, F ≤ fuel → findMinMax max data callbackInfoLen slotSize fuel = .ok (some slot) := by
  obtain ⟨N, slot, o, h1, h2, h3⟩ := loop_minMax ht max
  refine ⟨slot, o, h1, h2, N, fun fuel hf => ?_⟩
  obtain ⟨f, rfl⟩ := Nat.exists_eq_add_of_le' hf
  unfold findMinMax
  rw [hh]
  dsimp only [Bind.bind, Except.bind]
  rw [if_neg hn, h3]

/-- C79. On a tree of their own format, sorted by id, `find_l2_depth` ends. If there are fewer levels than asked for, it
gives all of them. Otherwise the last one has the quantity of its first order only. -/
theorem C79_l2 (hh : readHeader data = .ok ⟨root, n⟩) (hn : n ≠ 0)
    (ht : Holds (getNode data callbackInfoLen slotSize) root os) (hs : os.Pairwise (fun a b => a.id < b.id))
    (hq : (os.map Order.qty).sum < 2 ^ 64) (depth : Nat) (increasing : Bool) :
    ∃ F R, (∀ fuel, F ≤ fuel → findL2Depth data callbackInfoLen slotSize depth increasing fuel = .ok R) ∧
      ∀ l, l = (if increasing then os else os.reverse) →
      ((levels l).length < depth → R = levels l) ∧ (depth = 0 → R = []) ∧
      ∀ d, depth = d + 1 → d < (levels l).length → ∃ before o after, l = before ++ o :: after ∧
        (∀ x ∈ before, x.price ≠ o.price) ∧ ((levels l)[d]?).map Price.price = some o.price ∧
        R = (levels l).take d ++ [⟨o.qty, o.price⟩] := by
  have hsort : os.Pairwise (fun a b => a.price ≤ b.price) := hs.imp fun h => Nat.div_le_div_right (Nat.le_of_lt h)
  generalize hl : (if increasing then os else os.reverse) = l
  have hb : Js.ByPrice l := by
    subst hl
    cases increasing
    · right
      simp only [Bool.false_eq_true, if_false, List.pairwise_reverse]
      exact hsort
    · exact .inl hsort
  have hsum : (l.map Order.qty).sum < 2 ^ 64 := by
    subst hl
    cases increasing
    · simpa [List.sum_reverse] using hq
    · exact hq
  have hsz : ∀ p, Js.sizeAt l p < 2 ^ 64 := by
    intro p
    refine Nat.lt_of_le_of_lt ?_ hsum
    unfold Js.sizeAt
    generalize l = l
    induction l with
    | nil => exact Nat.le_refl _
    | cons x l ih =>
      rw [List.filter_cons]
      split <;> simp only [List.map_cons, List.sum_cons] <;> omega
  obtain ⟨N, hN⟩ := loop_holds (depth := depth) (inc := increasing) ht
  obtain ⟨a, b, hab, hrun, hstop⟩ := run_stop (depth := depth) l [] (by simpa using hb) (by simpa using hsz) rfl (by
    by_cases h0 : depth = 0
    · exact .inr (.inr ⟨h0.symm, .inl rfl⟩)
    · exact .inl (Nat.pos_of_ne_zero h0))
  rw [List.nil_append] at hab
  refine ⟨N + 1, levels a, fun fuel hf => ?_, ?_⟩
  · obtain ⟨f, rfl⟩ := Nat.exists_eq_add_of_le' hf
    unfold findL2Depth
    rw [hh]
    dsimp only [Bind.bind, Except.bind]
    rw [if_neg hn, ← Nat.add_assoc, hN f [] [], hl]
    change run depth l [] = _ at hrun
    rw [hrun]
    show l2Loop _ _ _ _ _ _ = _
    rw [l2Loop]
    split <;> rfl
  · rintro _ rfl
    refine ⟨?_, ?_, ?_⟩
    · intro hlt
      rcases hstop with ⟨rfl, -⟩ | ⟨h1, rfl | ⟨a0, o, rfl, hf⟩⟩
      · rw [hab, List.append_nil]
      · change 0 = depth at h1; omega
      · exfalso
        rw [List.append_assoc, List.singleton_append] at hab
        obtain ⟨s, r, e⟩ := levels_go_on hf
        rw [hab, e] at hlt
        rw [Js.levels_new (fun x hx => hf x hx o (by simp))] at h1
        simp at h1 hlt
        omega
    · rintro rfl
      rcases hstop with ⟨-, h⟩ | ⟨h, -⟩
      · omega
      · exact List.length_eq_zero_iff.1 h
    · rintro d rfl hd
      rcases hstop with ⟨rfl, h⟩ | ⟨h1, rfl | ⟨a0, o, rfl, hf⟩⟩
      · rw [hab, List.append_nil] at hd; omega
      · change 0 = d + 1 at h1; omega
      · rw [List.append_assoc, List.singleton_append] at hab
        obtain ⟨s, r, e⟩ := levels_go_on hf
        have hnew := Js.levels_new (fun x hx => hf x hx o (by simp))
        rw [hnew, List.length_append, List.length_singleton] at h1
        have hlen : (levels a0).length = d := by omega
        refine ⟨a0, o, b, hab, fun x hx => hf x hx o (by simp), ?_, ?_⟩
        · rw [hab, e, List.getElem?_append_right (by omega), hlen]
          simp
        · rw [hab, e, hnew, ← hlen]
          simp

/-! ### Concrete cases -/

/-- A slab of the old format with three orders: 5 and 4 at price 10, 7 at price 11; callback infos of one byte, slots of
32 bytes. -/
def old : Bytes :=
  [3] ++ toLE 8 5 ++ toLE 8 0 ++ toLE 4 0 ++ toLE 4 0 ++ toLE 8 3 ++ List.replicate 32 0 ++
  ([1] ++ toLE 4 63 ++ toLE 16 (10 * 2 ^ 64) ++ toLE 4 1 ++ toLE 4 2 ++ List.replicate 3 0) ++
  ([1] ++ toLE 4 127 ++ toLE 16 (10 * 2 ^ 64) ++ toLE 4 3 ++ toLE 4 4 ++ List.replicate 3 0) ++
  ([2] ++ toLE 16 (11 * 2 ^ 64 + 2) ++ [9] ++ toLE 8 7 ++ List.replicate 6 0) ++
  ([2] ++ toLE 16 (10 * 2 ^ 64) ++ [8] ++ toLE 8 5 ++ List.replicate 6 0) ++
  ([2] ++ toLE 16 (10 * 2 ^ 64 + 1) ++ [8] ++ toLE 8 4 ++ List.replicate 6 0)

/-- Its orders. -/
def oldOrders : List (Order Bytes) := [⟨10 * 2 ^ 64, 5, [8]⟩, ⟨10 * 2 ^ 64 + 1, 4, [8]⟩, ⟨11 * 2 ^ 64 + 2, 7, [9]⟩]

theorem ok_of {α : Type} [DecidableEq α] {x : Res α} {a : α} (h : x.toOption = some a) : x = .ok a := by
  cases x with
  | error e => cases h
  | ok y => rw [Option.some.inj h]

theorem old_header : readHeader old = .ok ⟨0, 3⟩ := ok_of (by decide +kernel)

theorem old_holds : Holds (getNode old 1 32) 0 oldOrders :=
  .inner (l0 := [⟨10 * 2 ^ 64, 5, [8]⟩, ⟨10 * 2 ^ 64 + 1, 4, [8]⟩]) (p := 63) (k := 10 * 2 ^ 64) (c0 := 1) (c1 := 2)
    (ok_of (by decide +kernel))
    (.inner (l0 := [⟨10 * 2 ^ 64, 5, [8]⟩]) (p := 127) (k := 10 * 2 ^ 64) (c0 := 3) (c1 := 4) (ok_of (by decide +kernel))
      (.leaf (ok_of (by decide +kernel))) (.leaf (ok_of (by decide +kernel))))
    (.leaf (ok_of (by decide +kernel)))

/-- The header and the nodes of `old`. -/
example := C79_layout (root := 0) (n := 3) (callbackInfoLen := 1) (slotSize := 32) 3 5 0 0 (List.replicate 32 0) (old.drop 65)
  (by decide) (by decide) (by decide) (by decide)
example := C79_empty (data := [3] ++ List.replicate 70 0) (root := 0) (ok_of (by decide +kernel)) 32 64 10 7 true
example := C79_min_max old_header (by decide) old_holds
example := C79_l2 old_header (by decide) old_holds (by decide) (by decide)

example : (findMinMax false old 1 32 9).toOption = some (some 3) ∧ (findMinMax true old 1 32 9).toOption = some (some 2) ∧
    (findL2Depth old 1 32 1 true 9).toOption = some [⟨5, 10⟩] ∧
    (findL2Depth old 1 32 2 true 9).toOption = some [⟨9, 10⟩, ⟨7, 11⟩] ∧
    (findL2Depth old 1 32 2 false 9).toOption = some [⟨7, 11⟩, ⟨4, 10⟩] ∧
    levels oldOrders = [⟨9, 10⟩, ⟨7, 11⟩] := by decide +kernel

/-- The asks of the first market of the demo. -/
example := C79_program_slabs (C := Bytes32) DemoChain.onChain_w4 (k := DemoChain.key 1)
  (by show DemoChain.key 1 ≠ DemoChain.key 6; decide +kernel) (Accounts.demo_isMarket (by decide +kernel)) .ask

end Wasm
end AOB
