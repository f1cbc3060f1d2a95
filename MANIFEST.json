{
 "claims": [
  {
   "property": "C01",
   "status": "proved",
   "theorems": [
    "AOB.C01_never_crossed"
   ],
   "note": ""
  },
  {
   "property": "C02",
   "status": "proved",
   "theorems": [
    "AOB.C02_price_then_time",
    "AOB.C02_rank_is_price",
    "AOB.C02_priority"
   ],
   "note": ""
  },
  {
   "property": "C03",
   "status": "proved",
   "theorems": [
    "AOB.C03_limit_respected"
   ],
   "note": ""
  },
  {
   "property": "C04",
   "status": "proved",
   "theorems": [
    "AOB.C04_caps"
   ],
   "note": ""
  },
  {
   "property": "C05",
   "status": "proved",
   "theorems": [
    "AOB.C05_summary"
   ],
   "note": ""
  },
  {
   "property": "C06",
   "status": "proved",
   "theorems": [
    "AOB.C06_fill_value"
   ],
   "note": ""
  },
  {
   "property": "C07",
   "status": "proved",
   "theorems": [
    "AOB.C07_conservation",
    "AOB.C07_one_fate"
   ],
   "note": ""
  },
  {
   "property": "C08",
   "status": "proved",
   "theorems": [
    "AOB.C08_cancel_silent",
    "AOB.C08_departures"
   ],
   "note": ""
  },
  {
   "property": "C09",
   "status": "proved",
   "theorems": [
    "AOB.C09_from_posting",
    "AOB.C09_callback_info"
   ],
   "note": ""
  },
  {
   "property": "C10",
   "status": "proved",
   "theorems": [
    "AOB.C10_unique_ids",
    "AOB.C10_fresh",
    "AOB.C10_limit_witness"
   ],
   "note": "Bound 2^63 transactions (order id side recovery needs it)."
  },
  {
   "property": "C11",
   "status": "proved",
   "theorems": [
    "AOB.C11_posted_id",
    "AOB.C11_next_id",
    "AOB.C11_gen_order_id",
    "AOB.C11_resting_side"
   ],
   "note": ""
  },
  {
   "property": "C12",
   "status": "proved",
   "theorems": [
    "AOB.C12_resting_valid",
    "AOB.C12_parameters"
   ],
   "note": ""
  },
  {
   "property": "C13",
   "status": "proved",
   "theorems": [
    "AOB.C13_events",
    "AOB.C13_match_limit"
   ],
   "note": ""
  },
  {
   "property": "C14",
   "status": "proved",
   "theorems": [
    "AOB.C14_post_only",
    "AOB.C14_no_post"
   ],
   "note": ""
  },
  {
   "property": "C15",
   "status": "proved",
   "theorems": [
    "AOB.C15_posting_rule",
    "AOB.C15_posted_order",
    "AOB.C15_not_posted"
   ],
   "note": ""
  },
  {
   "property": "C16",
   "status": "proved",
   "theorems": [
    "AOB.C16_no_self_trade",
    "AOB.C16_cancel_provide",
    "AOB.C16_abort",
    "AOB.C16_abort_ok"
   ],
   "note": ""
  },
  {
   "property": "C17",
   "status": "proved",
   "theorems": [
    "AOB.C17_eviction",
    "AOB.C17_no_eviction",
    "AOB.C17_refused"
   ],
   "note": ""
  },
  {
   "property": "C18",
   "status": "proved",
   "theorems": [
    "AOB.C18_never_panics"
   ],
   "note": ""
  },
  {
   "property": "C19",
   "status": "proved",
   "theorems": [
    "AOB.C19_full",
    "AOB.C19_success_sharp",
    "AOB.C19_only_failures",
    "AOB.C19_bad_price",
    "AOB.C19_success"
   ],
   "note": ""
  },
  {
   "property": "C20",
   "status": "proved",
   "theorems": [
    "AOB.C20_failed_step",
    "AOB.C20_no_write"
   ],
   "note": "That the writes of a failed instruction are undone is the Solana runtime's doing, modelled in Market.step; C20_no_write shows in addition that the lookups that fail write nothing themselves."
  },
  {
   "property": "C21",
   "status": "proved",
   "theorems": [
    "AOB.C21_cancel"
   ],
   "note": ""
  },
  {
   "property": "C22",
   "status": "proved",
   "theorems": [
    "AOB.C22_cancel_missing",
    "AOB.C22_panic_iff",
    "AOB.C22_panic_witness",
    "AOB.C22_never_posted"
   ],
   "note": "Never succeeds: proved. The documented error is not always returned: with exactly one order left on the side the code may panic instead (C22_panic_witness is a concrete history)."
  },
  {
   "property": "C23",
   "status": "proved",
   "theorems": [
    "AOB.C23_cancel_succeeds"
   ],
   "note": ""
  },
  {
   "property": "C24",
   "status": "proved",
   "theorems": [
    "AOB.C24_mass_cancel",
    "AOB.C24_only_if",
    "AOB.C24_order_irrelevant",
    "AOB.C24_as_single_cancels",
    "AOB.C24_all_or_nothing"
   ],
   "note": ""
  },
  {
   "property": "C25",
   "status": "proved",
   "theorems": [
    "AOB.C25_fifo"
   ],
   "note": ""
  },
  {
   "property": "C26",
   "status": "proved",
   "theorems": [
    "AOB.C26_pop",
    "AOB.C26_consume"
   ],
   "note": ""
  },
  {
   "property": "C27",
   "status": "proved",
   "theorems": [
    "AOB.C27_peek",
    "AOB.C27_market"
   ],
   "note": ""
  },
  {
   "property": "C28",
   "status": "proved",
   "theorems": [
    "AOB.C28_push"
   ],
   "note": ""
  },
  {
   "property": "C29",
   "status": "proved",
   "theorems": [
    "AOB.C29_contents",
    "AOB.C29_answers",
    "AOB.C29_answer",
    "AOB.C29_lookup",
    "AOB.C29_panic_witness"
   ],
   "note": "Removing an absent key from a one-leaf slab may panic (C29_panic_witness); the theorems say so."
  },
  {
   "property": "C30",
   "status": "proved",
   "theorems": [
    "AOB.C30_find_min",
    "AOB.C30_find_max"
   ],
   "note": ""
  },
  {
   "property": "C31",
   "status": "proved",
   "theorems": [
    "AOB.C31_iteration"
   ],
   "note": ""
  },
  {
   "property": "C32",
   "status": "proved",
   "theorems": [
    "AOB.C32_capacity",
    "AOB.C32_bounded"
   ],
   "note": ""
  },
  {
   "property": "C33",
   "status": "proved",
   "theorems": [
    "AOB.C33_depth",
    "AOB.C33_depth_exact",
    "AOB.C33_walks"
   ],
   "note": ""
  },
  {
   "property": "C34",
   "status": "proved",
   "theorems": [
    "AOB.Accounts.C34_accounts",
    "AOB.Accounts.C34_panics",
    "AOB.C34_spread_heads",
    "AOB.C34_get_spread"
   ],
   "note": ""
  },
  {
   "property": "C35",
   "status": "proved",
   "theorems": [
    "AOB.C35_time_priority"
   ],
   "note": ""
  },
  {
   "property": "C36",
   "status": "proved",
   "theorems": [
    "AOB.C36_round_bid",
    "AOB.C36_round_ask",
    "AOB.C36_round_valid",
    "AOB.C36_accepted_prices",
    "AOB.C36_rounded_accepted",
    "AOB.C36_overflow"
   ],
   "note": "For limit+tick >= 2^64 the ask rounding overflows (C36_overflow)."
  },
  {
   "property": "C37",
   "status": "proved",
   "theorems": [
    "AOB.Accounts.C37_close_only_empty",
    "AOB.Accounts.C37_close_succeeds",
    "AOB.Accounts.C37_lamports",
    "AOB.Accounts.C37_total",
    "AOB.C37_is_empty"
   ],
   "note": ""
  },
  {
   "property": "C38",
   "status": "proved",
   "theorems": [
    "AOB.Accounts.C38_disabled",
    "AOB.Accounts.C38_refused",
    "AOB.Accounts.C38_unchanged",
    "AOB.Accounts.C38_persists",
    "AOB.Accounts.C38_dead_for_ever"
   ],
   "note": "As long as the accounts are not removed: their lamports are zero after closing, so the runtime may remove them and their addresses may be used anew."
  },
  {
   "property": "C39",
   "status": "proved",
   "theorems": [
    "AOB.Accounts.C39_create_iff",
    "AOB.Accounts.C39_empty_market",
    "AOB.Accounts.C39_tags",
    "AOB.Accounts.C39_uninitialized_only",
    "AOB.Accounts.C39_stays_initialized",
    "AOB.Accounts.C39_once"
   ],
   "note": "C39_create_iff is exact; slab sizes and the owner of the market account are not checked by the code. C39_once holds as long as the accounts are not removed."
  },
  {
   "property": "C40",
   "status": "proved",
   "theorems": [
    "AOB.Accounts.C40_market_and_queue",
    "AOB.Accounts.C40_bids_and_asks",
    "AOB.Accounts.C40_owners"
   ],
   "note": "close_market checks the owner of the market account only (C40_owners excludes it); that the others are the program's follows from C54's invariant."
  },
  {
   "property": "C41",
   "status": "proved",
   "theorems": [
    "AOB.Accounts.C41_frame",
    "AOB.Accounts.C41_frame_entrypoint",
    "AOB.Accounts.C41_isolation",
    "AOB.Accounts.C41_disjoint"
   ],
   "note": "C41_isolation assumes that no account used as return register is used in another role (see C56)."
  },
  {
   "property": "C42",
   "status": "proved",
   "theorems": [
    "AOB.Layout.C42_slab",
    "AOB.Layout.C42_slab_capacity",
    "AOB.Layout.C42_queue",
    "AOB.Layout.C42_queue_check"
   ],
   "note": ""
  },
  {
   "property": "C43",
   "status": "proved",
   "theorems": [
    "AOB.Layout.C43_slab_read_write",
    "AOB.Layout.C43_slab_write_read",
    "AOB.Layout.C43_queue_read_write",
    "AOB.Layout.C43_queue_write_read",
    "AOB.Layout.C43_market_read_write",
    "AOB.Layout.C43_market_write_read"
   ],
   "note": ""
  },
  {
   "property": "C44",
   "status": "proved",
   "theorems": [
    "AOB.Layout.C44_out_bytes",
    "AOB.Layout.C44_out_slot",
    "AOB.Layout.C44_fill_slot",
    "AOB.Layout.C44_cast",
    "AOB.Layout.C44_push"
   ],
   "note": ""
  },
  {
   "property": "C45",
   "status": "proved",
   "theorems": [
    "AOB.Wire.C45_decode",
    "AOB.Wire.C45_bindings",
    "AOB.Wire.C45_mass_cancel_binding_witness",
    "AOB.Wire.C45_exact",
    "AOB.Wire.C45_unknown",
    "AOB.Wire.C45_overlong",
    "AOB.Wire.C45_truncated"
   ],
   "note": "C45_mass_cancel_binding_witness: the mass_cancel_orders binding passes the CloseMarket tag (instruction.rs 218)."
  },
  {
   "property": "C46",
   "status": "proved",
   "theorems": [
    "AOB.Chain.C46_entrypoint",
    "AOB.Chain.C46_register_suffices",
    "AOB.Chain.C46_call",
    "AOB.Wire.C46_register",
    "AOB.Wire.C46_short_register_witness"
   ],
   "note": "C46_short_register_witness shows 41 bytes are not enough; C46_entrypoint is about any successful call of the stand-alone program, C46_call about markets on the chain."
  },
  {
   "property": "C47",
   "status": "proved",
   "theorems": [
    "AOB.C47_no_trade_no_change"
   ],
   "note": ""
  },
  {
   "property": "C48",
   "status": "proved",
   "theorems": [
    "AOB.C48_opposite_side",
    "AOB.C48_own_side",
    "AOB.C48_unnamed_untouched",
    "AOB.C48_nothing_appears"
   ],
   "note": ""
  },
  {
   "property": "C49",
   "status": "proved",
   "theorems": [
    "AOB.C49_no_event_lost",
    "AOB.C49_appended"
   ],
   "note": ""
  },
  {
   "property": "C50",
   "status": "proved",
   "theorems": [
    "AOB.C50_rounding",
    "AOB.C50_total"
   ],
   "note": ""
  },
  {
   "property": "C51",
   "status": "proved",
   "theorems": [
    "AOB.Client.C51_levels",
    "AOB.Client.C51_levels_meaning",
    "AOB.Client.C51_wasm_witness"
   ],
   "note": "For slab accounts of a prescribed size. C51_wasm_witness: the wasm version stops inside the last level."
  },
  {
   "property": "C52",
   "status": "proved",
   "theorems": [
    "AOB.Client.C52_events",
    "AOB.Client.C52_parseFill_witness"
   ],
   "note": "parseFill only while head = 0; C52_parseFill_witness is a chain history where it shows a consumed fill instead of the pending one."
  },
  {
   "property": "C53",
   "status": "proved",
   "theorems": [
    "AOB.C53_fill_maximal"
   ],
   "note": ""
  },
  {
   "property": "C54",
   "status": "proved",
   "theorems": [
    "AOB.Chain.C54_reachable",
    "AOB.Chain.C54_step",
    "AOB.Chain.C54_run",
    "AOB.Chain.C54_appears"
   ],
   "note": "Assumes the behaviour of the Solana runtime stated in Spec/Chain.lean and that return registers are kept apart (see C56)."
  },
  {
   "property": "C55",
   "status": "proved",
   "theorems": [
    "AOB.Chain.C55_exact"
   ],
   "note": ""
  },
  {
   "property": "C56",
   "status": "proved",
   "theorems": [
    "AOB.Chain.C56_register_overwritten",
    "AOB.Chain.C56_register_destroys",
    "AOB.Chain.C56_register_alias_witness"
   ],
   "note": "A hazard of entrypoint.rs: proved to exist for every market."
  },
  {
   "property": "C57",
   "status": "proved",
   "theorems": [
    "AOB.Chain.C57_can_be_emptied",
    "AOB.Chain.C57_can_be_closed"
   ],
   "note": "Under the bound of 2^63 ids, as C10."
  },
  {
   "property": "C58",
   "status": "proved",
   "theorems": [
    "AOB.Client.C58_encodings",
    "AOB.Client.C58_newOrder",
    "AOB.Client.C58_newOrder_witness",
    "AOB.Client.C58_createMarket_data",
    "AOB.Client.C58_createMarket_witness",
    "AOB.Client.C58_accounts",
    "AOB.Client.C58_closeMarket_witness"
   ],
   "note": "Statement lists what does and does not work; witnesses are theorems for all parameters (createMarket, newOrder, closeMarket)."
  },
  {
   "property": "C59",
   "status": "proved",
   "theorems": [
    "AOB.Client.C59_sizes",
    "AOB.Client.C59_no_orders",
    "AOB.Client.C59_market",
    "AOB.Client.C59_slab",
    "AOB.Client.C59_odd_size_witness"
   ],
   "note": "C59_odd_size_witness: a chain history with a slab of 216 bytes whose callback infos the client misreads."
  },
  {
   "property": "C60",
   "status": "proved",
   "theorems": [
    "AOB.C60_matching_exhaustive"
   ],
   "note": ""
  },
  {
   "property": "C61",
   "status": "proved",
   "theorems": [
    "AOB.C61_traded_order"
   ],
   "note": ""
  },
  {
   "property": "C62",
   "status": "proved",
   "theorems": [
    "AOB.C62_same_state",
    "AOB.C62_same_answer"
   ],
   "note": "The reference engine is Spec/Engine.lean (plain lists). The exception (a panic instead of OrderNotFound) is the one of C22."
  },
  {
   "property": "C63",
   "status": "proved",
   "theorems": [
    "AOB.C63_no_hidden_state",
    "AOB.C63_exception_witness"
   ],
   "note": "C63_exception_witness shows that the exception is real."
  },
  {
   "property": "C64",
   "status": "proved",
   "theorems": [
    "AOB.C64_queue_irrelevant",
    "AOB.C64_crank_has_no_influence"
   ],
   "note": ""
  },
  {
   "property": "C65",
   "status": "proved",
   "theorems": [
    "AOB.C65_parts_give_the_whole",
    "AOB.C65_whole_gives_the_parts",
    "AOB.C65_limit_prefix"
   ],
   "note": ""
  },
  {
   "property": "C66",
   "status": "proved",
   "theorems": [
    "AOB.C66_only_what_is_asked",
    "AOB.C66_same_answer_if_asked",
    "AOB.C66_names_do_not_matter",
    "AOB.C66_same_answer",
    "AOB.C66_decrement_take_is_blind"
   ],
   "note": ""
  },
  {
   "property": "C67",
   "status": "proved",
   "theorems": [
    "AOB.C67_post_then_cancel"
   ],
   "note": ""
  },
  {
   "property": "C68",
   "status": "proved",
   "theorems": [
    "AOB.C68_custody",
    "AOB.C68_step",
    "AOB.C68_all_paid"
   ],
   "note": "The embedding program is Spec/Custody.lean (it is not part of /repo): the plainest reading of summaries and events."
  },
  {
   "property": "C69",
   "status": "proved",
   "theorems": [
    "AOB.C69_best_can_be_taken",
    "AOB.C69_asks_never_block",
    "AOB.C69_worthless_bid_blocks",
    "AOB.C69_never_blocked",
    "AOB.C69_blocked_witness"
   ],
   "note": ""
  },
  {
   "property": "C70",
   "status": "proved",
   "theorems": [
    "AOB.C70_no_gain_at",
    "AOB.C70_no_gain"
   ],
   "note": ""
  },
  {
   "property": "C71",
   "status": "proved",
   "theorems": [
    "AOB.C71_looser_limit",
    "AOB.C71_more_base",
    "AOB.C71_more_quote",
    "AOB.C71_seller_quote_witness"
   ],
   "note": ""
  },
  {
   "property": "C72",
   "status": "proved",
   "theorems": [
    "AOB.C72_orders_behind"
   ],
   "note": ""
  },
  {
   "property": "C73",
   "status": "proved",
   "theorems": [
    "AOB.RawBytes.C73_queue_bytes",
    "AOB.RawBytes.C73_market_bytes",
    "AOB.RawBytes.C73_slab_bytes"
   ],
   "note": ""
  },
  {
   "property": "C74",
   "status": "proved",
   "theorems": [
    "AOB.Runtime.C74_bindings_permitted",
    "AOB.Runtime.C74_foreign_market_refused",
    "AOB.Runtime.C74_signatures",
    "AOB.Runtime.C74_js_close_refused",
    "AOB.Runtime.C74_js_permitted",
    "AOB.Runtime.C74_js_wallets_refused",
    "AOB.Runtime.C74_mass_cancel_refused"
   ],
   "note": ""
  },
  {
   "property": "C75",
   "status": "proved",
   "theorems": [
    "AOB.C75_follows",
    "AOB.C75_entrypoint_follows",
    "AOB.C75_market",
    "AOB.C75_history",
    "AOB.C75_chain",
    "AOB.C75_call",
    "AOB.C75_entry",
    "AOB.C75_round_price",
    "AOB.C75_round_price_witness",
    "AOB.C75_counter_witness"
   ],
   "note": ""
  },
  {
   "property": "C76",
   "status": "proved",
   "theorems": [
    "AOB.C76_slab",
    "AOB.C76_sound_iteration",
    "AOB.C76_sound_lookup",
    "AOB.C76_sound_ends",
    "AOB.C76_market",
    "AOB.Chain.C76_chain",
    "AOB.C76_detects",
    "AOB.C76_gap"
   ],
   "note": ""
  },
  {
   "property": "C77",
   "status": "proved",
   "theorems": [
    "AOB.Parallel.C77_local",
    "AOB.Parallel.C77_local_process",
    "AOB.Parallel.C77_commute",
    "AOB.Parallel.C77_refused",
    "AOB.Parallel.C77_interleaving",
    "AOB.Parallel.C77_markets"
   ],
   "note": ""
  },
  {
   "property": "C78",
   "status": "proved",
   "theorems": [
    "AOB.Verdict.C78_create",
    "AOB.Verdict.C78_new_order",
    "AOB.Verdict.C78_cancel",
    "AOB.Verdict.C78_mass_cancel",
    "AOB.Verdict.C78_consume",
    "AOB.Verdict.C78_close",
    "AOB.Verdict.C78_dispatch",
    "AOB.Verdict.C78_errors",
    "AOB.Verdict.C78_entry_errors",
    "AOB.Verdict.C78_terminates",
    "AOB.Verdict.C78_codes",
    "AOB.Verdict.C78_all_occur"
   ],
   "note": ""
  },
  {
   "property": "C79",
   "status": "proved",
   "theorems": [
    "AOB.Wasm.C79_program_slabs",
    "AOB.Wasm.C79_layout",
    "AOB.Wasm.C79_refused",
    "AOB.Wasm.C79_empty",
    "AOB.Wasm.C79_only_panics",
    "AOB.Wasm.C79_bad_root",
    "AOB.Wasm.C79_min_max",
    "AOB.Wasm.C79_l2"
   ],
   "note": ""
  },
  {
   "property": "C80",
   "status": "proved",
   "theorems": [
    "AOB.Stuck.C80_readable_iff",
    "AOB.Stuck.C80_sizes",
    "AOB.Stuck.C80_allocated",
    "AOB.Stuck.C80_only_consume",
    "AOB.Stuck.C80_for_ever",
    "AOB.Stuck.C80_witness"
   ],
   "note": ""
  },
  {
   "property": "C81",
   "status": "proved",
   "theorems": [
    "AOB.Setup.C81_accounts",
    "AOB.Setup.C81_create_iff",
    "AOB.Setup.C81_ready",
    "AOB.Setup.C81_no_orders",
    "AOB.Setup.C81_client_refused",
    "AOB.Setup.C81_loaders",
    "AOB.Setup.C81_closed"
   ],
   "note": ""
  },
  {
   "property": "C82",
   "status": "proved",
   "theorems": [
    "AOB.C82_cancel_and_order",
    "AOB.C82_cancel_and_cancel",
    "AOB.C82_cancel_and_consume",
    "AOB.C82_consume_and_order"
   ],
   "note": ""
  },
  {
   "property": "C83",
   "status": "proved",
   "theorems": [
    "AOB.C83_limits_irrelevant",
    "AOB.C83_limits_have_no_influence"
   ],
   "note": ""
  },
  {
   "property": "C84",
   "status": "proved",
   "theorems": [
    "AOB.C84_follow",
    "AOB.C84_rebuild",
    "AOB.C84_rebuild_sides"
   ],
   "note": ""
  },
  {
   "property": "C85",
   "status": "proved",
   "theorems": [
    "AOB.C85_fills_allocate",
    "AOB.C85_rounding",
    "AOB.C85_buyer",
    "AOB.C85_seller",
    "AOB.C85_seller_cap_witness"
   ],
   "note": ""
  },
  {
   "property": "C86",
   "status": "proved",
   "theorems": [
    "AOB.Wasm.C86_write_node",
    "AOB.Wasm.C86_remove_absent",
    "AOB.Wasm.C86_remove_present",
    "AOB.Wasm.C86_remove_min_max",
    "AOB.Wasm.C86_remove_empty",
    "AOB.Wasm.C86_removals",
    "AOB.Wasm.C86_insert",
    "AOB.Wasm.C86_sequence",
    "AOB.Wasm.C86_leaf_slots",
    "AOB.Wasm.C86_new",
    "AOB.Wasm.C86_side",
    "AOB.Wasm.C86_sizes",
    "AOB.Wasm.C86_header",
    "AOB.Wasm.C86_only_panics",
    "AOB.Wasm.C86_cycle"
   ],
   "note": ""
  },
  {
   "property": "C87",
   "status": "proved",
   "theorems": [
    "AOB.C87_fills",
    "AOB.C87_total",
    "AOB.C87_levels"
   ],
   "note": ""
  },
  {
   "property": "C88",
   "status": "proved",
   "theorems": [
    "AOB.C88_overtaking",
    "AOB.C88_place"
   ],
   "note": ""
  },
  {
   "property": "C89",
   "status": "proved",
   "theorems": [
    "AOB.C89_opposite",
    "AOB.C89_own",
    "AOB.C89_others",
    "AOB.C89_run"
   ],
   "note": ""
  },
  {
   "property": "C90",
   "status": "proved",
   "theorems": [
    "AOB.C90_fits",
    "AOB.C90_larger_queue"
   ],
   "note": ""
  },
  {
   "property": "C91",
   "status": "proved",
   "theorems": [
    "AOB.C91_cancel_provide"
   ],
   "note": ""
  },
  {
   "property": "C92",
   "status": "proved",
   "theorems": [
    "AOB.C92_tag",
    "AOB.C92_market",
    "AOB.C92_queue",
    "AOB.C92_slab",
    "AOB.C92_host",
    "AOB.C92_host_witness",
    "AOB.C92_base"
   ],
   "note": ""
  },
  {
   "property": "C93",
   "status": "proved",
   "theorems": [
    "AOB.C93_same",
    "AOB.C93_work",
    "AOB.C93_flat",
    "AOB.C93_queue",
    "AOB.C93_cancel_exact",
    "AOB.C93_events"
   ],
   "note": ""
  },
  {
   "property": "C94",
   "status": "proved",
   "theorems": [
    "AOB.C94_unit_of_quote",
    "AOB.C94_same_answer",
    "AOB.C94_rounding_witness"
   ],
   "note": ""
  },
  {
   "property": "C95",
   "status": "proved",
   "theorems": [
    "AOB.C95_only_order_of_prices",
    "AOB.C95_same_answer",
    "AOB.C95_worthless_witness"
   ],
   "note": ""
  },
  {
   "property": "C96",
   "status": "proved",
   "theorems": [
    "AOB.C96_one_order",
    "AOB.C96_same_order",
    "AOB.C96_history",
    "AOB.C96_spare_witness"
   ],
   "note": ""
  },
  {
   "property": "C97",
   "status": "proved",
   "theorems": [
    "AOB.C97_lifetime_price",
    "AOB.C97_parts_witness"
   ],
   "note": ""
  },
  {
   "property": "C98",
   "status": "proved",
   "theorems": [
    "AOB.C98_more_base",
    "AOB.C98_buyer",
    "AOB.C98_seller",
    "AOB.C98_additional",
    "AOB.C98_cancel",
    "AOB.C98_quote_cap_witness"
   ],
   "note": ""
  },
  {
   "property": "C99",
   "status": "proved",
   "theorems": [
    "AOB.C99_share",
    "AOB.C99_less_before_gets_more",
    "AOB.C99_block",
    "AOB.C99_waiting"
   ],
   "note": ""
  },
  {
   "property": "C100",
   "status": "proved",
   "theorems": [
    "AOB.C100_has_what_it_traded",
    "AOB.C100_all_back",
    "AOB.C100_nothing_lost"
   ],
   "note": ""
  },
  {
   "property": "C101",
   "status": "proved",
   "theorems": [
    "AOB.C101_trades",
    "AOB.C101_no_loss",
    "AOB.C101_rounding_witness"
   ],
   "note": ""
  },
  {
   "property": "C102",
   "status": "proved",
   "theorems": [
    "AOB.Chain.C102_anyone_cancels",
    "AOB.Chain.C102_anyone_discards",
    "AOB.Chain.C102_anyone_takes_all"
   ],
   "note": ""
  },
  {
   "property": "C103",
   "status": "proved",
   "theorems": [
    "AOB.C103_less_is_left",
    "AOB.C103_no_less_base",
    "AOB.C103_buyer",
    "AOB.C103_seller",
    "AOB.C103_quote_cap_witness"
   ],
   "note": ""
  },
  {
   "property": "C104",
   "status": "proved",
   "theorems": [
    "AOB.C104_takers",
    "AOB.C104_posting_witness"
   ],
   "note": ""
  },
  {
   "property": "C105",
   "status": "proved",
   "theorems": [
    "AOB.C105_when",
    "AOB.C105_levels",
    "AOB.C105_sequence",
    "AOB.C105_price_witness"
   ],
   "note": ""
  },
  {
   "property": "C106",
   "status": "proved",
   "theorems": [
    "AOB.C106_backlog",
    "AOB.C106_never_full",
    "AOB.C106_consume_after_each",
    "AOB.C106_sharp_witness"
   ],
   "note": ""
  },
  {
   "property": "C107",
   "status": "proved",
   "theorems": [
    "AOB.C107_taken",
    "AOB.C107_buyer",
    "AOB.C107_seller",
    "AOB.C107_rounding_witness"
   ],
   "note": ""
  },
  {
   "property": "C108",
   "status": "proved",
   "theorems": [
    "AOB.Wasm.C108_check",
    "AOB.Wasm.C108_total",
    "AOB.Wasm.C108_distinct",
    "AOB.Wasm.C108_sorted",
    "AOB.Wasm.C108_find",
    "AOB.Wasm.C108_find_empty",
    "AOB.Wasm.C108_good",
    "AOB.Wasm.C108_removals",
    "AOB.Wasm.C108_blind_witness",
    "AOB.Wasm.C108_find_only_panics"
   ],
   "note": ""
  },
  {
   "property": "C109",
   "status": "proved",
   "theorems": [
    "AOB.C109_life",
    "AOB.C109_complete"
   ],
   "note": ""
  },
  {
   "property": "C110",
   "status": "proved",
   "theorems": [
    "AOB.RawBytes.C110_bytes",
    "AOB.C110_once",
    "AOB.C110_keeps_its_slot",
    "AOB.C110_own_slot"
   ],
   "note": ""
  },
  {
   "property": "C111",
   "status": "proved",
   "theorems": [
    "AOB.Chain.C111_step",
    "AOB.Chain.C111_run"
   ],
   "note": ""
  },
  {
   "property": "C112",
   "status": "proved",
   "theorems": [
    "AOB.Chain.C112_rent_exempt"
   ],
   "note": ""
  },
  {
   "property": "C113",
   "status": "proved",
   "theorems": [
    "AOB.C113_never_grows",
    "AOB.C113_gone",
    "AOB.C113_cancel_once",
    "AOB.Chain.C113_chain"
   ],
   "note": ""
  },
  {
   "property": "C114",
   "status": "proved",
   "theorems": [
    "AOB.C114_slot_of_event",
    "AOB.RawBytes.C114_bytes"
   ],
   "note": ""
  },
  {
   "property": "C115",
   "status": "proved",
   "theorems": [
    "AOB.C115_volume",
    "AOB.C115_told",
    "AOB.C115_balance",
    "AOB.C115_numbers"
   ],
   "note": ""
  }
 ]
}