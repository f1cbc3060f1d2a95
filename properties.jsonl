{"id": "C01", "title": "The book is never crossed", "statement": "After every instruction, the price of every resting bid is strictly lower than the price of every resting ask.", "quantifier": "every market created with non-zero minimum size and tick size and any account sizes, and every finite sequence of new_order / cancel_order / mass_cancel_orders / consume_events instructions with arbitrary parameters (fewer than 2^63 of them), failed ones included", "why_tests_cant": "Depends on every interleaving of posts, partial fills, self-trade cancels, match-limit cut-offs and evictions.", "anchors": ["program/src/state/orderbook.rs::OrderBookState::new_order", "program/src/state/orderbook.rs::OrderBookState::get_spread"]}
{"id": "C02", "title": "Price-time priority", "statement": "Within one new_order, the resting orders that are filled or cancelled are taken strictly best price first and, at equal price, first posted first: when an order is touched, no better-ranked order of that side is still resting, and an order is left untouched only if every order ranked after it is untouched too.", "quantifier": "every market state reachable by such a history, and every new_order parameter set", "why_tests_cant": "Needs every tree shape and every set of order ids, not a handful of books.", "anchors": ["program/src/state/orderbook.rs::OrderBookState::new_order", "program/src/state/orderbook.rs::OrderBookState::find_bbo", "program/src/state/critbit.rs::Slab::find_min", "program/src/state/critbit.rs::Slab::find_max", "program/src/state/event_queue.rs::EventQueue::gen_order_id"]}
{"id": "C03", "title": "Limit price is respected", "statement": "Every fill produced by a bid is at a maker price less than or equal to the bid's limit price, and every fill produced by an ask is at a maker price greater than or equal to its limit price.", "quantifier": "every market state reachable by such a history, and every new_order parameter set", "why_tests_cant": "Ranges over all books and all limits.", "anchors": ["program/src/state/orderbook.rs::OrderBookState::new_order"]}
{"id": "C04", "title": "Taker never exceeds its caps", "statement": "A successful new_order never reports or executes more base than max_base_qty nor more quote than max_quote_qty, fills and posted remainder together.", "quantifier": "every market state reachable by such a history, and every new_order parameter set", "why_tests_cant": "Rounding (ceil for bids, floor for asks) of every fill and of the posted remainder must stay inside the cap for every price and size.", "anchors": ["program/src/state/orderbook.rs::OrderBookState::new_order", "bonfida_utils::fp_math"]}
{"id": "C05", "title": "Order summary adds up", "statement": "total_base_qty equals the sum of base sizes of the fills emitted by this order plus total_base_qty_posted; total_quote_qty equals the sum of their quote sizes plus the rounded quote value of the posted quantity at the limit price (ceil for a bid, floor for an ask).", "quantifier": "every market state reachable by such a history, and every new_order parameter set", "why_tests_cant": "An accounting identity over an unbounded number of fills.", "anchors": ["program/src/state/orderbook.rs::OrderBookState::new_order", "program/src/state/orderbook.rs::OrderSummary"]}
{"id": "C06", "title": "Fill value is the rounded trade value", "statement": "Each fill's quote size is exactly base*price/2^32, rounded up when the taker buys and rounded down when the taker sells, with price the maker's price; both base and quote size are non-zero and the capping against the remaining quote never changes the value.", "quantifier": "every market state reachable by such a history, and every new_order parameter set", "why_tests_cant": "Depends on arithmetic of all 64-bit quantities and prices.", "anchors": ["program/src/state/orderbook.rs::OrderBookState::new_order", "bonfida_utils::fp_math"]}
{"id": "C07", "title": "Conservation of every posted order", "statement": "For every order id ever posted: quantity posted = sum of the base sizes of all its fills + quantity given back when it left the book (out event or cancellation) + quantity still resting.", "quantifier": "every market created with non-zero minimum size and tick size and any account sizes, and every finite sequence of new_order / cancel_order / mass_cancel_orders / consume_events instructions with arbitrary parameters (fewer than 2^63 of them), failed ones included", "why_tests_cant": "A whole-history identity for each order.", "anchors": ["program/src/state/orderbook.rs::OrderBookState::new_order", "program/src/processor/cancel_order.rs::process", "program/src/processor/mass_cancel_orders.rs::process"]}
{"id": "C08", "title": "Every departure is announced exactly once", "statement": "An order that leaves the book during a new_order (dust after a fill, self-trade cancel, eviction) causes exactly one Out event carrying its id, side, callback info and remaining quantity; orders that stay cause no Out event, and a cancelled order causes no event at all.", "quantifier": "every market state reachable by such a history, and every new_order parameter set", "why_tests_cant": "Needs all paths of the matching loop for all books.", "anchors": ["program/src/state/orderbook.rs::OrderBookState::new_order"]}
{"id": "C09", "title": "Callback info is returned unchanged", "statement": "Every event about an order carries exactly the callback info supplied when that order was posted, and every fill carries the taker's callback info.", "quantifier": "every market created with non-zero minimum size and tick size and any account sizes, and every finite sequence of new_order / cancel_order / mass_cancel_orders / consume_events instructions with arbitrary parameters (fewer than 2^63 of them), failed ones included", "why_tests_cant": "Callback info lives in slots that are freed and reused; every reuse order matters.", "anchors": ["program/src/state/orderbook.rs::OrderBookState::new_order", "program/src/state/critbit.rs::Slab::get_callback_info_mut", "program/src/state/event_queue.rs::EventQueue::push_back"]}
{"id": "C10", "title": "Order ids are unique", "statement": "Two different posted orders never receive the same order id during the life of a market (fewer than 2^63 transactions), and a newly posted id is not resting already.", "quantifier": "every market created with non-zero minimum size and tick size and any account sizes, and every finite sequence of new_order / cancel_order / mass_cancel_orders / consume_events instructions with arbitrary parameters (fewer than 2^63 of them), failed ones included", "why_tests_cant": "Uniqueness over the whole history.", "anchors": ["program/src/state/event_queue.rs::EventQueue::gen_order_id", "program/src/state/event_queue.rs::EventQueue::gen_seq_num"]}
{"id": "C11", "title": "Order id encodes price and side", "statement": "The upper 64 bits of a posted id are the limit price and the lower 64 bits the number of the order, complemented for a bid. The number used is the next one; a new order uses up one number exactly when there is something to post by the rules of C15, also when a full side then refuses it, and no other instruction uses any. The side recovered from the id is the side of the order (fewer than 2^63 posts), so cancel looks in the right tree.", "quantifier": "every price, side and sequence number below 2^63", "why_tests_cant": "All 2^127 combinations.", "anchors": ["program/src/state/event_queue.rs::EventQueue::gen_order_id", "program/src/state.rs::get_side_from_order_id", "program/src/state/critbit.rs::LeafNode::price_from_key"]}
{"id": "C12", "title": "Resting orders meet the market's limits", "statement": "Every resting order has at least min_base_order_size base quantity left and a price that is a positive multiple of the tick size.", "quantifier": "every market created with non-zero minimum size and tick size and any account sizes, and every finite sequence of new_order / cancel_order / mass_cancel_orders / consume_events instructions with arbitrary parameters (fewer than 2^63 of them), failed ones included", "why_tests_cant": "Must survive every partial fill.", "anchors": ["program/src/state/orderbook.rs::OrderBookState::new_order", "program/src/processor/new_order.rs::process"]}
{"id": "C13", "title": "Match limit bounds work", "statement": "A new_order touches at most match_limit resting orders of the opposite side and emits at most 2*match_limit events.", "quantifier": "every market state reachable by such a history, and every new_order parameter set", "why_tests_cant": "Any book, any limit.", "anchors": ["program/src/state/orderbook.rs::OrderBookState::new_order"]}
{"id": "C14", "title": "Post-only and no-post flags", "statement": "A post_only order never produces a fill and never removes an opposite-side order; an order with post_allowed = false never rests in the book.", "quantifier": "every market state reachable by such a history, and every new_order parameter set", "why_tests_cant": "All books and all parameters.", "anchors": ["program/src/state/orderbook.rs::OrderBookState::new_order", "program/src/processor/new_order.rs::Params"]}
{"id": "C15", "title": "When an order is posted", "statement": "The remainder of an order is posted exactly when posting is allowed, matching stopped because the opposite side is empty or no longer crosses the limit, the affordable remainder reaches min_base_order_size, and there is a free slot or an evictable strictly worse order; the posted order is resting afterwards with exactly the reported id, quantity and callback info.", "quantifier": "every market state reachable by such a history, and every new_order parameter set", "why_tests_cant": "A complete decision rule over all states.", "anchors": ["program/src/state/orderbook.rs::OrderBookState::new_order"]}
{"id": "C16", "title": "Self-trade protection", "statement": "With CancelProvide or AbortTransaction no fill ever matches an order with the same callback id as the taker; with AbortTransaction the order fails as soon as it would; with CancelProvide the own resting order is removed, announced and not counted as traded.", "quantifier": "every market state reachable by such a history, and every new_order parameter set", "why_tests_cant": "All books, all callback ids.", "anchors": ["program/src/state/orderbook.rs::OrderBookState::new_order", "program/src/state.rs::SelfTradeBehavior"]}
{"id": "C17", "title": "Eviction from a full side", "statement": "If the own side is full, posting removes at most one order: the worst-ranked one of that side, and only if its price is strictly worse than the new limit price; otherwise the book is unchanged by the posting attempt and nothing is posted.", "quantifier": "every market state reachable by such a history, and every new_order parameter set", "why_tests_cant": "Full books with arbitrary free-list histories.", "anchors": ["program/src/state/orderbook.rs::OrderBookState::new_order"]}
{"id": "C18", "title": "new_order never panics", "statement": "In a reachable market new_order terminates and never hits an index out of bounds, a failed unwrap, or an arithmetic overflow or underflow.", "quantifier": "every market state reachable by such a history, and every new_order parameter set", "why_tests_cant": "Absence of panics for all inputs and histories.", "anchors": ["program/src/state/orderbook.rs::OrderBookState::new_order", "program/src/state/critbit.rs::Slab::insert_leaf", "program/src/state/critbit.rs::Slab::remove_by_key"]}
{"id": "C19", "title": "The only new_order failures", "statement": "In a reachable market a well-formed new_order (valid tick) can fail only with EventQueueFull or WouldSelfTrade; NumericalOverflow and SlabOutOfSpace are never returned. EventQueueFull is returned only if fewer than 2*match_limit places of the event queue are free; so with that many free places, and self-trading not forbidden, a well-formed order succeeds.", "quantifier": "every market state reachable by such a history, and every new_order parameter set", "why_tests_cant": "Completeness of the error set.", "anchors": ["program/src/state/orderbook.rs::OrderBookState::new_order", "program/src/processor/new_order.rs::process"]}
{"id": "C20", "title": "Failed instructions change nothing", "statement": "An instruction that returns an error leaves the book, the queue and the sequence number as they were.", "quantifier": "every market created with non-zero minimum size and tick size and any account sizes, and every finite sequence of new_order / cancel_order / mass_cancel_orders / consume_events instructions with arbitrary parameters (fewer than 2^63 of them), failed ones included", "why_tests_cant": "All failure points.", "anchors": ["program/src/processor/new_order.rs::process", "program/src/processor/cancel_order.rs::process", "program/src/processor/mass_cancel_orders.rs::process", "program/src/processor/consume_events.rs::process"]}
{"id": "C21", "title": "Cancel removes exactly one order", "statement": "cancel_order on a resting id removes that order only, leaves every other order, both queues and all callback infos unchanged, emits no event, and reports its remaining base quantity and the floor of its quote value.", "quantifier": "every market state reachable by such a history, and every new_order parameter set", "why_tests_cant": "Removal restructures the tree; all shapes matter.", "anchors": ["program/src/processor/cancel_order.rs::process", "program/src/state/critbit.rs::Slab::remove_by_key"]}
{"id": "C22", "title": "Cancel of a missing order is rejected", "statement": "cancel_order on an id that is not resting never succeeds and changes nothing; the documented error is OrderNotFound. An id under which no order was ever posted always gets OrderNotFound; for others the code panics exactly when one order is left on the side and the first leaf slot still holds the id.", "quantifier": "every market state reachable by such a history, and every new_order parameter set", "why_tests_cant": "Every id and every tree, including stale memory in freed slots.", "anchors": ["program/src/processor/cancel_order.rs::process", "program/src/state/critbit.rs::Slab::remove_by_key"]}
{"id": "C23", "title": "A resting order can always be cancelled", "statement": "cancel_order on a resting id never fails: in particular the reported quote value always fits in 64 bits.", "quantifier": "every market created with non-zero minimum size and tick size and any account sizes, and every finite sequence of new_order / cancel_order / mass_cancel_orders / consume_events instructions with arbitrary parameters (fewer than 2^63 of them), failed ones included", "why_tests_cant": "Relies on an invariant of all posted orders.", "anchors": ["program/src/processor/cancel_order.rs::process"]}
{"id": "C24", "title": "mass_cancel_orders is a sequence of cancels", "statement": "mass_cancel_orders succeeds iff the ids are distinct resting orders (and totals fit 64 bits); its effect on the book is that of cancelling each id, independent of the order of ids, and its totals are the sums of the single cancels; if one id is missing nothing is cancelled.", "quantifier": "every market state reachable by such a history, and every new_order parameter set", "why_tests_cant": "All id lists and all permutations.", "anchors": ["program/src/processor/mass_cancel_orders.rs::process"]}
{"id": "C25", "title": "Event queue is a FIFO queue", "statement": "For any sequence of pushes and pops, the queue's visible content is that of an unbounded FIFO list truncated only by refusing pushes when full: nothing is lost, duplicated, overwritten or reordered, across any number of wrap-arounds.", "quantifier": "every queue capacity and every finite sequence of push/pop operations", "why_tests_cant": "Wrap-around positions are unbounded.", "anchors": ["program/src/state/event_queue.rs::EventQueue::push_back", "program/src/state/event_queue.rs::EventQueue::pop_n", "program/src/state/event_queue.rs::EventQueue::iter"]}
{"id": "C26", "title": "Consume pops the oldest events", "statement": "consume_events(n) removes exactly the min(n, count) oldest events, keeps the rest in order, and touches neither book nor sequence number.", "quantifier": "every reachable queue and every n", "why_tests_cant": "Every head position and n.", "anchors": ["program/src/processor/consume_events.rs::process", "program/src/state/event_queue.rs::EventQueue::pop_n"]}
{"id": "C27", "title": "peek_at agrees with iteration", "statement": "peek_at(i) returns the i-th item of iter for i < len and None otherwise; iter yields exactly len items.", "quantifier": "every reachable queue and every index", "why_tests_cant": "Every wrap position.", "anchors": ["program/src/state/event_queue.rs::EventQueue::peek_at", "program/src/state/event_queue.rs::EventQueue::iter", "program/src/state/event_queue.rs::QueueIterator"]}
{"id": "C28", "title": "A full queue refuses events, never overwrites", "statement": "A push onto a full queue returns the event back as an error and leaves the queue unchanged; a push onto a non-full queue always succeeds and appends.", "quantifier": "every reachable queue and every event", "why_tests_cant": "Every fill level and head position.", "anchors": ["program/src/state/event_queue.rs::EventQueue::push_back", "program/src/state/event_queue.rs::EventQueue::full"]}
{"id": "C29", "title": "The slab is a sorted map", "statement": "For any sequence of inserts and removals, each side behaves like a finite map from order id to (quantity, callback info): insert adds or overwrites, remove deletes and returns the entry, lookups agree.", "quantifier": "every capacity and every finite sequence of insert/remove operations on 128-bit keys", "why_tests_cant": "All tree shapes, all free-list histories.", "anchors": ["program/src/state/critbit.rs::Slab::insert_leaf", "program/src/state/critbit.rs::Slab::remove_by_key", "program/src/state/critbit.rs::Slab::find_by_key"]}
{"id": "C30", "title": "Best orders are the extreme keys", "statement": "find_min / find_max return the leaf with the smallest / largest id, and None exactly when the side is empty.", "quantifier": "every reachable slab", "why_tests_cant": "All tree shapes.", "anchors": ["program/src/state/critbit.rs::Slab::find_min", "program/src/state/critbit.rs::Slab::find_max"]}
{"id": "C31", "title": "Iteration is sorted and complete", "statement": "Iterating a side yields every resting order exactly once, in increasing (or decreasing) id order.", "quantifier": "every reachable slab and both directions", "why_tests_cant": "All tree shapes.", "anchors": ["program/src/state/critbit.rs::Slab::into_iter", "program/src/state/critbit.rs::SlabIterator"]}
{"id": "C32", "title": "Capacity never leaks", "statement": "After any history, an insert of a new key succeeds iff the side holds fewer orders than its slot capacity; slots freed by any removal order are reusable; an inner node is always available.", "quantifier": "every capacity and every finite sequence of insert/remove operations", "why_tests_cant": "Leaks show only after particular free-list histories.", "anchors": ["program/src/state/critbit.rs::Slab::allocate_leaf", "program/src/state/critbit.rs::Slab::free_leaf", "program/src/state/critbit.rs::Slab::allocate_inner_node", "program/src/state/critbit.rs::Slab::free_inner_node"]}
{"id": "C33", "title": "Tree depth and walks are bounded", "statement": "Every walk from the root visits at most 128 inner nodes, so lookups, inserts and removals terminate whatever the keys; get_depth is at most 129 and never more than the number of orders. It is exact: the path to an order has one inner node for each bit at which its key parts from another key, and get_depth is the longest such path, leaf included.", "quantifier": "every reachable slab and every key", "why_tests_cant": "Adversarial key sets.", "anchors": ["program/src/state/critbit.rs::Slab::get_depth", "program/src/state/critbit.rs::InnerNode::walk_down"]}
{"id": "C34", "title": "get_spread reports the best prices", "statement": "get_spread returns the highest resting bid price and lowest resting ask price, None exactly for an empty side; so does the function of the same name that other programs call with the bids and asks accounts of a market on the chain, and it panics on accounts that are not a bids and an asks account in this order.", "quantifier": "every market state reachable by any history; every market on every chain history; every world for the panic", "why_tests_cant": "All books.", "anchors": ["program/src/state/orderbook.rs::OrderBookState::get_spread", "program/src/utils.rs::get_spread"]}
{"id": "C35", "title": "Time priority by posting order", "statement": "Of two resting orders of one side and price, the one posted earlier ranks strictly before the one posted later, for the whole life of both.", "quantifier": "every market created with non-zero minimum size and tick size and any account sizes, and every finite sequence of new_order / cancel_order / mass_cancel_orders / consume_events instructions with arbitrary parameters (fewer than 2^63 of them), failed ones included", "why_tests_cant": "History property over id generation and matching.", "anchors": ["program/src/state/event_queue.rs::EventQueue::gen_order_id", "program/src/state/orderbook.rs::OrderBookState::find_bbo"]}
{"id": "C36", "title": "round_price gives a valid tick price", "statement": "round_price returns a multiple of the tick size, the largest not above the limit for a bid and the smallest not below it for an ask, and is the identity on valid prices, as long as limit+tick fits in 64 bits (the code adds before it subtracts 1); new_order accepts exactly multiples of the tick.", "quantifier": "every tick size, limit price and side", "why_tests_cant": "All 64-bit pairs.", "anchors": ["program/src/utils.rs::round_price", "program/src/processor/new_order.rs::process"]}
{"id": "C37", "title": "Only an empty market can be closed", "statement": "close_market succeeds only if both sides hold no order and the event queue holds no event; then all lamports of the four accounts move to the target and none is created or lost.", "quantifier": "every world of accounts and every close_market call", "why_tests_cant": "All states and balances.", "anchors": ["program/src/processor/close_market.rs::process"]}
{"id": "C38", "title": "A closed market is dead", "statement": "After a successful close_market, and as long as the four accounts are not removed by the runtime, every further instruction given one of them in the place of a market, event queue, bids or asks account fails, create_market included, for ever.", "quantifier": "every world and every later sequence of instructions", "why_tests_cant": "All later histories.", "anchors": ["program/src/processor/close_market.rs::process", "program/src/state/critbit.rs::Slab::from_buffer", "program/src/state/event_queue.rs::EventQueue::from_buffer", "program/src/state/market_state.rs::MarketState::from_buffer"]}
{"id": "C39", "title": "create_market yields an empty market once", "statement": "create_market succeeds only on uninitialized accounts with non-zero parameters and a valid event queue size; on zeroed accounts it yields an empty book and queue with the given parameters and keys; a second create_market on any of the same accounts fails.", "quantifier": "every world and parameter set", "why_tests_cant": "All account contents and sizes.", "anchors": ["program/src/processor/create_market.rs::process", "program/src/state/critbit.rs::Slab::initialize", "program/src/state/event_queue.rs::EventQueue::check_buffer_size"]}
{"id": "C40", "title": "Accounts are authenticated", "statement": "new_order, cancel_order, mass_cancel_orders, consume_events and close_market fail without effect unless the market account is owned by the program, tagged as market, and the event queue, bids and asks passed are the very accounts recorded in it.", "quantifier": "every world, account list and instruction", "why_tests_cant": "All account substitutions.", "anchors": ["program/src/processor/new_order.rs::check_accounts", "program/src/processor/cancel_order.rs::check_accounts", "program/src/processor/mass_cancel_orders.rs::check_accounts", "program/src/processor/consume_events.rs::check_accounts", "program/src/processor/close_market.rs::check_accounts", "program/src/utils.rs::check_account_key", "program/src/utils.rs::check_account_owner"]}
{"id": "C41", "title": "Markets do not interfere", "statement": "An instruction changes no account other than those passed to it; instructions on one market leave every other market's book, queue and parameters unchanged.", "quantifier": "every world holding several markets and every instruction", "why_tests_cant": "All account lists.", "anchors": ["program/src/processor.rs::process_instruction"]}
{"id": "C42", "title": "Allocation sizes give the requested capacity", "statement": "An account of compute_allocation_size(n) bytes holds exactly n orders (resp. n events), is accepted by the size check (n >= 5 for the queue) and is partitioned without gap, overlap or leftover bytes.", "quantifier": "every n >= 1 and callback info size", "why_tests_cant": "All sizes.", "anchors": ["program/src/state/critbit.rs::Slab::compute_allocation_size", "program/src/state/critbit.rs::Slab::from_buffer", "program/src/state/event_queue.rs::EventQueue::compute_allocation_size", "program/src/state/event_queue.rs::EventQueue::check_buffer_size", "program/src/state/event_queue.rs::EventQueue::from_buffer"]}
{"id": "C43", "title": "Account bytes round-trip", "statement": "Reading a slab, event queue or market account and writing it back leaves the bytes unchanged, and writing then reading gives the same structure: no field aliases another.", "quantifier": "every well-sized buffer and every in-range structure", "why_tests_cant": "All byte strings.", "anchors": ["program/src/state/critbit.rs::Slab::from_buffer", "program/src/state/event_queue.rs::EventQueue::from_buffer", "program/src/state/market_state.rs::MarketState::from_buffer"]}
{"id": "C44", "title": "Events survive the shared slot format", "statement": "An Out event stored in the common event slot is read back with the same side, id and base size and is recognised as Out; likewise for Fill.", "quantifier": "every event field value", "why_tests_cant": "All field values.", "anchors": ["program/src/state/event_queue.rs::OutEvent", "program/src/state/event_queue.rs::FillEvent", "program/src/state/event_queue.rs::EventQueue::get_event"]}
{"id": "C45", "title": "Instructions decode to what was encoded", "statement": "For each instruction, the bytes built by the public binding are dispatched to that instruction with the same parameters (except instruction::mass_cancel_orders, whose bytes are dispatched to close_market whatever the ids: a defect, shown by a witness theorem); malformed, truncated or over-long data is rejected (close_market ignores what follows its tag byte).", "quantifier": "every instruction and parameter value, every byte string", "why_tests_cant": "All byte strings.", "anchors": ["program/src/instruction.rs", "program/src/processor.rs::process_instruction"]}
{"id": "C46", "title": "The return register round-trips", "statement": "The order summary written to the register account by new_order/cancel/mass_cancel is decoded to the same summary; it needs at most 42 bytes (one more than ORDER_SUMMARY_SIZE: a 41-byte register makes a posting order panic); other instructions write None.", "quantifier": "every summary", "why_tests_cant": "All values.", "anchors": ["program/src/entrypoint.rs::process_instruction", "program/src/state/orderbook.rs::OrderSummary", "program/src/state/orderbook.rs::ORDER_SUMMARY_SIZE"]}
{"id": "C47", "title": "No trade, no change", "statement": "A new_order that does not cross, or that may not trade, leaves the opposite side untouched; if it also does not post, the whole book and the queue are unchanged.", "quantifier": "every market state reachable by such a history, and every new_order parameter set", "why_tests_cant": "All books.", "anchors": ["program/src/state/orderbook.rs::OrderBookState::new_order"]}
{"id": "C48", "title": "Orders not named are not touched", "statement": "A new_order changes no resting order other than the opposite-side orders named by its events and, on its own side, the evicted order and the newly posted one: ids, quantities and callback infos of all others are preserved.", "quantifier": "every market state reachable by such a history, and every new_order parameter set", "why_tests_cant": "All books.", "anchors": ["program/src/state/orderbook.rs::OrderBookState::new_order"]}
{"id": "C49", "title": "No event is lost over a history", "statement": "The concatenation of all events consumed so far and those still queued is exactly the sequence of events emitted by the successful new_order instructions, in order.", "quantifier": "every market created with non-zero minimum size and tick size and any account sizes, and every finite sequence of new_order / cancel_order / mass_cancel_orders / consume_events instructions with arbitrary parameters (fewer than 2^63 of them), failed ones included", "why_tests_cant": "History property with wrap-around.", "anchors": ["program/src/state/event_queue.rs::EventQueue", "program/src/processor/consume_events.rs::process", "program/src/state/orderbook.rs::OrderBookState::new_order"]}
{"id": "C50", "title": "Rounding favours the resting order", "statement": "For a buying taker the maker receives at least the exact trade value and less than one quote unit more; for a selling taker the maker pays at most the exact value and less than one unit less; the total a buying taker pays for fills is at most the sum of the ceilings of base*limit.", "quantifier": "every market state reachable by such a history, and every new_order parameter set", "why_tests_cant": "All 64-bit sizes.", "anchors": ["program/src/state/orderbook.rs::OrderBookState::new_order", "bonfida_utils::fp_math"]}
{"id": "C51", "title": "Aggregated depth is exact", "statement": "The client's L2 view (getL2DepthJS) of a slab account of a size the program prescribes lists the price levels of the side in order, each price once with the total quantity of all resting orders at that price, for any requested depth and either direction. (find_l2_depth of js/wasm does not: its last level may be incomplete.)", "quantifier": "every market on every chain history, both sides, every depth and direction", "why_tests_cant": "All tree shapes and tie patterns.", "anchors": ["js/src/slab.ts::Slab::getL2DepthJS", "js/wasm/src/critbit.rs::Slab::find_l2_depth"]}
{"id": "C52", "title": "Client event parsing sees the queue", "statement": "The client parses the event queue of every market on the chain; peekAt shows the pending events at positions 0 to count-1, first to come first. parseFill returns the pending fills in order as long as the head of the queue is at slot 0; after events were consumed it may return consumed fills instead of the pending ones.", "quantifier": "every market on every chain history, every position and limit", "why_tests_cant": "All head positions.", "anchors": ["js/src/event_queue.ts::EventQueue::parseFill", "js/src/event_queue.ts::EventQueue::peekAt"]}
{"id": "C53", "title": "Each fill is as large as it can be", "statement": "The base size of each fill is the minimum of what is left of the resting order, what is left of the taker's base cap, and the base amount the taker's remaining quote buys at the maker's price (floor of remaining_quote*2^32/price).", "quantifier": "every successful new_order of every reachable market, every fill of it", "why_tests_cant": "the three limits interact through the running totals of all earlier fills of the same order and through 64-bit rounding; only a proof covers all books and caps", "anchors": ["program/src/state/orderbook.rs"]}
{"id": "C54", "title": "Markets on the chain are the markets of the model", "statement": "In every history of the chain (calls of the program with any accounts and data, calls of the stand-alone program, and anything others can do in between), every market that can be read from the accounts is reachable by some history of market instructions; each step of the chain leaves a given market as it is, runs exactly one successful market instruction on it, or closes it when it is empty; a market appears only by create_market, empty.", "quantifier": "every history of the chain, every market account, no bound on steps or accounts", "why_tests_cant": "Relates byte-level account contents to market state over all interleavings of calls on any number of markets.", "anchors": ["program/src/processor.rs::process_instruction", "program/src/entrypoint.rs::process_instruction"]}
{"id": "C55", "title": "A call returns what the market returns", "statement": "Called with a market's own accounts, process_instruction returns exactly the summary or the error of the market instruction, and the market read back from the accounts afterwards is the market the instruction leads to.", "quantifier": "every world on the chain, every market, every instruction", "why_tests_cant": "Exact agreement, errors included, for all states and data.", "anchors": ["program/src/processor.rs::process_instruction", "program/src/state/critbit.rs::Slab::from_buffer", "program/src/state/event_queue.rs::EventQueue::from_buffer"]}
{"id": "C56", "title": "The return register is overwritten unchecked", "statement": "The stand-alone program overwrites the first bytes of its last account whatever that account is; an account of a market passed there ceases to be one, and for every market such a call exists and succeeds (consume_events of no event), leaving the market account uninitialized. So the program's properties hold only for callers that keep registers apart, which C54 assumes.", "quantifier": "every world on the chain and every market", "why_tests_cant": "That it works against every market in every state.", "anchors": ["program/src/entrypoint.rs::process_instruction"]}
{"id": "C57", "title": "Every market can be emptied and closed", "statement": "From every reachable state (with fewer than 2^63 ids given out) there is a sequence of cancel_order and consume_events calls, none of which fails, after which the market is empty; on the chain close_market then succeeds. No order, event or lamport can get stuck.", "quantifier": "every reachable market", "why_tests_cant": "A liveness statement over all reachable states.", "anchors": ["program/src/processor/cancel_order.rs::process", "program/src/processor/consume_events.rs::process", "program/src/processor/close_market.rs::process"]}
{"id": "C58", "title": "Client instructions mean what they say", "statement": "The data and accounts of the client's cancelOrder, consumeEvents, massCancelOrder are read by the program as the instruction meant. The client's newOrder is read as the order meant exactly when the callback info is encoded with a length prefix, which the stand-alone program's 32 byte info is not; its createMarket is always refused; its closeMarket sends the lamports to the authority account instead of the given target.", "quantifier": "all parameters, accounts and worlds", "why_tests_cant": "Agreement of two independently written encoders over all values; the JavaScript tests do not run against this version of the program.", "anchors": ["js/src/raw_instructions.ts::newOrderInstruction", "js/src/raw_instructions.ts::createMarketInstruction", "js/src/raw_instructions.ts::closeMarketInstruction", "program/src/processor.rs::process_instruction"]}
{"id": "C59", "title": "Client reads accounts as the program wrote them", "statement": "The client reads the market account as the program does and asks for the same account sizes. From a slab account of a size the program prescribes it lists exactly the resting orders with their callback infos, in either direction, gives the n best ones, and finds an order by its id. From accounts of other sizes, which create_market accepts, it may show wrong callback infos.", "quantifier": "every market on every chain history, both sides, all ids", "why_tests_cant": "All tree shapes and account sizes.", "anchors": ["js/src/slab.ts::Slab", "js/src/market_state.ts::MarketState", "js/src/event_queue.ts::EventQueue::computeAllocationSize"]}
{"id": "C60", "title": "Matching goes on as long as it can", "statement": "A successful new_order stops matching only for one of these reasons: it is post-only, it has used up its match limit, the best opposite order left (if any) is not acceptable at its limit price, or the largest trade its remaining base and quote caps permit with that order is zero in base or in quote.", "quantifier": "every market state reachable by such a history, and every successful new_order", "why_tests_cant": "That matching never stops early must hold for all books, caps, roundings and match limits.", "anchors": ["program/src/state/orderbook.rs::OrderBookState::new_order"]}
{"id": "C61", "title": "A traded order leaves exactly when its rest is too small", "statement": "An order of the opposite side named by an event of a new_order is either the taker's own order under CancelProvide, or it has at least one fill, and then it leaves the book if and only if its remaining quantity is below min_base_order_size. In particular no foreign order is taken off the opposite side without a trade.", "quantifier": "every market state reachable by such a history, every successful new_order, every opposite order", "why_tests_cant": "An exact rule over all books, with several fills of the same order possible.", "anchors": ["program/src/state/orderbook.rs::OrderBookState::new_order"]}
{"id": "C62", "title": "A market is the reference engine", "statement": "After every history of instructions a market shows exactly the orders, events and sequence number that a reference matching engine on plain sorted lists holds after the same history, and it answers every further instruction with the same summary or the same error. The only exception is a cancellation of an order that does not rest: it may panic instead of returning OrderNotFound.", "quantifier": "every valid configuration, every finite history of instructions, every next instruction", "why_tests_cant": "A full behavioural equivalence over all histories.", "anchors": ["program/src/state/orderbook.rs", "program/src/state/critbit.rs", "program/src/state/event_queue.rs", "program/src/processor/new_order.rs", "program/src/processor/cancel_order.rs", "program/src/processor/mass_cancel_orders.rs", "program/src/processor/consume_events.rs"]}
{"id": "C63", "title": "No hidden state", "statement": "Two markets of the same configuration with the same resting orders, pending events and sequence number give the same answer to every instruction and show the same afterwards, however they came about: tree shape, slots, free lists and ring positions have no influence. The only exception is the panic of a cancellation that finds nothing.", "quantifier": "every pair of reachable markets of one configuration, every instruction", "why_tests_cant": "Relates all pairs of histories.", "anchors": ["program/src/state/orderbook.rs", "program/src/state/critbit.rs", "program/src/state/event_queue.rs"]}
{"id": "C64", "title": "Cranking and the size of the event queue have no influence on trading", "statement": "Two histories that contain the same new_order, cancel_order and mass_cancel_orders instructions, interleaved with any consume_events instructions, on markets that differ at most in the size of the event queue, end with the same resting orders and the same next sequence number and have posted, traded and cancelled the same, provided no instruction was refused for a full queue. Step by step: markets that differ at most in their queues give the same answer to every such instruction and emit the same events.", "quantifier": "every pair of valid configurations with the same rules, every pair of histories with the same instructions apart from consume_events; every pair of reachable markets and every instruction", "why_tests_cant": "Relates all interleavings of trading and cranking.", "anchors": ["program/src/state/orderbook.rs::OrderBookState::new_order", "program/src/processor/consume_events.rs", "program/src/state/event_queue.rs"]}
{"id": "C65", "title": "An order can be executed in parts", "statement": "A new_order with match limit n1+n2 is the same as one with limit n1 that posts nothing, followed by one with limit n2 and what the first left of the two caps: one succeeds exactly if the other two do, the totals add up, the posted order is the same, and the markets show the same afterwards. In particular a larger match limit only appends trades. (The second part needs n2 > 0 unless nothing is to be posted.)", "quantifier": "every reachable market, every order, every splitting of its match limit", "why_tests_cant": "An algebraic law over all books, orders and splittings.", "anchors": ["program/src/state/orderbook.rs::OrderBookState::new_order"]}
{"id": "C66", "title": "Users are treated alike", "statement": "The callback infos only matter in so far as two of them have the same callback id or not: renaming all callback infos of a history, without merging or splitting users, renames them in the resting orders and the events and changes nothing else: same quantities, prices, ids, sequence numbers, summaries and failures. More exactly, an order with DecrementTake asks nothing about users and another order only asks which callback infos have its own callback id; any replacement of callback infos that keeps these answers is unnoticed, so where all orders use DecrementTake users may be merged or split at will.", "quantifier": "every history, every renaming (also to another callback info type; any map at all where all orders use DecrementTake), every further instruction", "why_tests_cant": "Relates every history to all its renamings.", "anchors": ["program/src/state/orderbook.rs::OrderBookState::new_order", "program/src/state.rs::CallbackInfo"]}
{"id": "C67", "title": "Posting can be undone", "statement": "An order that was just posted can be cancelled under the id returned, the cancellation returns exactly the posted base quantity and its rounded-down quote value, and leaves the own side as it was before the order (without its worst order if the side was full), the opposite side and the events as the order left them.", "quantifier": "every market reachable by fewer than 2^63 transactions, every new_order that posts", "why_tests_cant": "Needs the insertion position and removal in a crit-bit tree for all books.", "anchors": ["program/src/state/orderbook.rs::OrderBookState::new_order", "program/src/processor/cancel_order.rs"]}
{"id": "C68", "title": "Custody: what the market owes is always covered", "statement": "A program that embeds the order book and moves tokens only as told (it collects the total quote of the summary from a buyer and the total base from a seller, pays base and quote of each consumed fill, returns the rest of an order announced by a consumed out event, and returns a cancelled order's quantity or rounded-down value) holds, after every history, exactly the base tokens and at least the quote tokens it still owes for resting orders and unconsumed events. The excess of quote never falls and is at most one unit for each bid posted and each fill of a resting bid. Once the book and the queue are empty nothing is missing.", "quantifier": "every valid configuration, every history of at most 2^63 well-typed transactions (failed ones included), arbitrary funds for the one-step statement", "why_tests_cant": "Rounding and dust rules have to fit together over every history of partial fills, evictions, self-trades and cancellations; a shortfall of one unit shows only on particular fractional prices.", "anchors": ["program/src/state/orderbook.rs::OrderBookState::new_order", "program/src/state/orderbook.rs::OrderSummary", "program/src/processor/cancel_order.rs", "program/src/processor/consume_events.rs"]}
{"id": "C69", "title": "The best order can be taken, unless it is worth nothing", "statement": "The best order of a side can be taken as a whole by one new_order of match limit 1 by another user whose limit and caps cover it, if two event slots are free and its value (rounded as for the taker) is not zero: the answer, the two events and both sides afterwards are exactly as expected. Asks are never worth nothing to a buyer. But while the best bid is worth less than one quote unit, every ask at its price or lower succeeds without trading, posting or changing anything, so nobody can sell; this cannot happen when min_base_order_size times tick_size is at least 2^32.", "quantifier": "every market reachable by any history, every such order", "why_tests_cant": "A liveness statement about every book; the blocking bid needs fractional prices that tests do not use.", "anchors": ["program/src/state/orderbook.rs::OrderBookState::new_order"]}
{"id": "C70", "title": "No gain from taking alone", "statement": "Whoever trades against the book without posting cannot gain: over any sequence of non-posting orders (with cancellations and consumptions in between), if no more base is sold than bought then no more quote is received than paid; more exactly, valuing base at any price between the bids and asks at the start, takers never gain.", "quantifier": "every reachable market, every sequence of instructions that posts nothing, every price between best bid and best ask, in total at most 2^63 transactions", "why_tests_cant": "Quantifies over all trading strategies; an error in one rounding direction shows only for particular fractional prices repeated often enough.", "anchors": ["program/src/state/orderbook.rs::OrderBookState::new_order"]}
{"id": "C71", "title": "Looser limits and larger caps do not trade less", "statement": "For one market and two orders that both succeed: with a looser limit price the fills are those of the stricter order, possibly followed by more; with a larger base cap the traded base and quote totals are not smaller; the same for a larger quote cap of a buyer (for a seller it is false: giving up a dust remainder can send a smaller cap to worse bids).", "quantifier": "every reachable market, every order, every looser limit or larger cap", "why_tests_cant": "Relates pairs of executions on every book.", "anchors": ["program/src/state/orderbook.rs::OrderBookState::new_order"]}
{"id": "C72", "title": "Orders behind do not matter", "statement": "If the opposite sides of two markets begin with the same orders, then the same new_order, when it succeeds on both, produces on both the same events, in the same order, about these orders, whatever rests behind them, on the own side, or in the event queues.", "quantifier": "every two reachable markets with the same minimum order size, every common front part, every order", "why_tests_cant": "Relates pairs of executions on every pair of books.", "anchors": ["program/src/state/orderbook.rs::OrderBookState::new_order"]}
{"id": "C73", "title": "The raw bytes of the accounts", "statement": "The accounts of every market on the chain are, byte by byte, what the repr(C) structs say: the market account is its tag, the three addresses and the two parameters; the event queue account is its tag, head, count and sequence number, then the pending events in the ring from head on (tag 0 or 1, side, zero padding, quote, order id, base), then their callback infos; a slab account has its tag, its leaf count, and for each resting order, in a slot of its own, the id and quantity in the leaf array and the callback info in the info array; its root handle leads to a tree of inner nodes, each with a key, the length of the prefix common to all ids below it and two children parted by the next bit, whose leaves from left to right are the orders in the order of their ids; and the slots not in use, of leaves and of inner nodes, are linked in the two free lists whose length, head and high-water mark are in the header, or have never been used.", "quantifier": "every market in every world reachable by any chain history, every callback info type", "why_tests_cant": "An indexer relies on these bytes after every history of wrapping rings and reused slots; tests read back through the same code that wrote.", "anchors": ["program/src/state/event_queue.rs::FillEvent", "program/src/state/event_queue.rs::OutEvent", "program/src/state/critbit.rs::LeafNode", "program/src/state/market_state.rs::MarketState", "program/src/state/critbit.rs::InnerNode", "program/src/state/critbit.rs::SlabHeader"]}
{"id": "C74", "title": "The program stays within what the runtime permits", "statement": "Every successful call of the stand-alone program with the account lists of its Rust bindings changes only accounts these mark as writable, no owner and no size, no data of accounts of other programs and takes no lamports from them, and keeps the sum of the balances; so the runtime does not undo it. It is needed that the register, and the market account when creating, belong to the program: otherwise the runtime refuses the call though create_market does not look. The bindings ask for no signature and mark the market account read-only except to create or close it; the client asks for the authority's signature, and marks the authority and nothing else read-only, except to create. The binding mass_cancel_orders never succeeds. The client's closeMarket pays to an account it marks read-only, and everything the client builds is refused when authority and target are wallets.", "quantifier": "every world reachable by any chain history, every instruction, all account keys, every callback info type", "why_tests_cant": "Test harnesses call the processor directly or with everything writable; aliased and read-only accounts are not enumerated.", "anchors": ["program/src/instruction.rs", "program/src/processor", "program/src/entrypoint.rs", "js/src/raw_instructions.ts"]}
{"id": "C75", "title": "The build without overflow checks does the same", "statement": "The program built in release mode, with wrapping arithmetic, gives the same result (or error) and effect as the one built with overflow checks on all accounts on which the latter does not panic. On a market that can arise every instruction has the same result in both, panics included, for the first 2^64 - 1 instructions. Every chain history of fewer than 2^64 steps of the release program is a history of the checked one, and at each point a call of the one succeeds exactly if a call of the other does, with the same effect. round_price for asks in the release build is the least multiple of the tick size not below the limit if limit + tick <= 2^64 and 0 otherwise.", "quantifier": "all accounts and instruction data, every reachable market, every chain history, every callback info type below 2 GiB", "why_tests_cant": "Tests run in debug mode with overflow checks on; the deployed build differs exactly in executions that tests would have to find by hitting an overflow.", "anchors": ["program/Cargo.toml", "program/src/utils.rs", "program/src/state/critbit.rs", "program/src/state/event_queue.rs", "program/src/state/orderbook.rs", "program/src/processor"]}
{"id": "C76", "title": "The code base's own slab check passes, and what it means", "statement": "check_invariants, which the code base's tests call after every operation, passes on every slab after any sequence of operations, on both sides of every market that can arise and of every market on the chain. Conversely, on any slab whatsoever on which it passes (with the root inside the leaf array if there is a single leaf), iteration shows exactly leaf_count leaves in strictly ascending order of keys, find_by_key finds exactly those keys, and find_min and find_max are the ends. It says nothing about the contents of the free lists.", "quantifier": "every slab reachable by any sequence of operations, every reachable market, every chain history; conversely every slab with fields in the range of their types", "why_tests_cant": "The tests run the check on a few thousand random operations; that it can never fail, and what passing implies for arbitrary memory, are statements about all slabs.", "anchors": ["program/src/state/critbit.rs:496"]}
{"id": "C77", "title": "Only the accounts passed matter; calls without common accounts commute", "statement": "What a call does, its error included, depends only on the accounts it is passed, and it changes no others. So two calls that change none of each other's accounts commute: each succeeds after the other and both orders lead to the same world, account by account. In any interleaving of calls on the accounts of a set with calls on accounts outside, the accounts of the set end up as if the latter had not been made. On the chain this holds for any two calls on different markets with their own registers and targets.", "quantifier": "every two worlds, every list of accounts and data, every sequence of calls; every chain history, every two markets", "why_tests_cant": "The runtime executes such transactions at the same time, in schedules a test does not control; independence is a statement about all pairs of worlds.", "anchors": ["program/src/processor.rs:19", "program/src/entrypoint.rs:15"]}
{"id": "C78", "title": "Every call ends, with a known answer", "statement": "No call goes on for ever. For each instruction there is a list of conditions with errors (wrong owners, wrong keys, wrong tags, unreadable sizes, bad parameters); the first that holds is the answer. If none does, create_market, consume_events and close_market succeed, and new_order, cancel_order and mass_cancel_orders act on a market, whose own refusals are EventQueueFull, WouldSelfTrade and OrderNotFound (or the panics of C22 and C24). The program can answer with 20 errors and no others; each of them does occur; their codes are those of a table (the position in error.rs, or the number of solana_program shifted by 32 bits), different and none is the code of success (nor is that of any other error defined in error.rs).", "quantifier": "every chain history, every list of accounts and instruction data; create_market and the dispatcher in any world", "why_tests_cant": "Which of several errors comes first, and that there are no further ones, are statements about all accounts and data, malformed ones included.", "anchors": ["program/src/processor.rs:19", "program/src/entrypoint.rs:15", "program/src/error.rs:10", "program/src/processor/create_market.rs:75", "program/src/processor/new_order.rs:118", "program/src/processor/cancel_order.rs:76", "program/src/processor/consume_events.rs:67", "program/src/processor/close_market.rs:73"]}
{"id": "C79", "title": "The wasm readers", "statement": "The functions of js/wasm (find_min, find_max, find_l2_depth) read an older slab format: they panic on every slab of every market of the program. Their own format is a header of 65 bytes and slots, given byte by byte. On anything shorter than the header, or with another tag, they panic; so they do if the root's slot is outside the data or cannot be read, and whenever they end without an answer. In a slab without orders they find nothing. On a tree of their own format they end; find_min and find_max give the slots of the first and the last order; find_l2_depth gives all levels when there are fewer than asked for, and otherwise the right prices and sizes except for the last level, whose size is that of its first order only.", "quantifier": "every market on every chain history; every byte buffer that holds a tree in the old format, every depth, direction and callback info length", "why_tests_cant": "All tree shapes, and all accounts of all markets; the crate's only test is 2 + 2 = 4.", "anchors": ["js/wasm/src/lib.rs::find_l2_depth", "js/wasm/src/critbit.rs::Slab::find_l2_depth", "js/wasm/src/critbit.rs::Slab::find_min_max"]}
{"id": "C80", "title": "A market with slabs of an unreadable size is stuck for ever", "statement": "create_market does not check the sizes of the slab accounts. A market can be read exactly if both slab accounts have a readable size (room for at least one order, and the slack a whole number of callback infos), which the sizes given by compute_allocation_size are. If not, then after any further history of the chain, whoever acts, it is still a market with the same state, its four accounts have the same owner, the same size and at least the same lamports, its slabs are unchanged, and the only instruction on it that succeeds is consume_events: it can never be closed and its lamports are lost.", "quantifier": "every market on every chain history, every callback info size, every continuation of the history", "why_tests_cant": "A claim about all possible futures of a market, including calls for other markets and what other programs do.", "anchors": ["program/src/processor/create_market.rs::process", "program/src/state/critbit.rs::Slab::from_buffer", "program/src/state/critbit.rs::Slab::compute_allocation_size", "program/src/processor/close_market.rs::process"]}
{"id": "C81", "title": "From nothing to a market and back, as the client sees it", "statement": "The accounts the client creates at unused addresses appear exactly as asked for (zeroed, of the computed sizes, owned by the program, rent exempt, the payer having paid exactly for them). In them the program's own create_market succeeds exactly if there is room for five events and neither parameter is zero; for at least one order the result is the empty market with exactly the capacities asked for, which the client finds under its address; for no orders it is a market stuck for ever (C80). The instruction the client itself sends to create the market is always refused. While a market exists the client's loaders find its accounts and read their contents; after close_market they find nothing.", "quantifier": "every world on the chain, all capacities and parameters, all keys, all callback info sizes", "why_tests_cant": "All capacities, sizes and worlds; the client's end-to-end test uses one market, and by this property cannot pass with the program as it is.", "anchors": ["js/src/bindings.ts::createMarket", "js/src/market_state.ts::MarketState.retrieve", "js/src/event_queue.ts::EventQueue.load", "js/src/slab.ts::Slab.computeAllocationSize", "program/src/processor/create_market.rs::process"]}
{"id": "C82", "title": "Instructions that can be exchanged", "statement": "A resting order that a successful new_order does not touch (no event names it) can be cancelled before or after it with the same answers, the same events and the same resulting market, provided that, if the order is then the best of the opposite side, its price is not acceptable to the new order or the new order has traded all it wants, and that, if it is on the side of the new order and something may be posted, that side has a free place. Two different resting orders can be cancelled in either order; a resting order before or after any consume_events; and consume_events of no more than is pending can be done before instead of after a successful new_order.", "quantifier": "every reachable market, every order, every resting order, every number of events; histories of fewer than 2^63 instructions", "why_tests_cant": "Relates two executions for all markets and orders; the two conditions are shown to be needed by concrete cases.", "anchors": ["program/src/state/orderbook.rs::OrderBookState::new_order", "program/src/processor/cancel_order.rs::process", "program/src/processor/consume_events.rs::process", "program/src/state/critbit.rs::Slab::remove_by_key"]}
{"id": "C83", "title": "Account sizes and tick size have no influence until they are met", "statement": "Two markets with the same minimum order size whose tick sizes and account sizes differ in any way give the same answers, events and resting orders to the same history of new_order, cancel_order and mass_cancel_orders instructions, interleaved with any consume_events, as long as no new_order is refused for its limit price or for a full event queue and each finds a free place on its side. Step by step: the same for any two reachable markets with the same resting orders and sequence number.", "quantifier": "every pair of valid configurations with the same minimum order size, every pair of histories with the same instructions apart from consume_events; every pair of reachable markets and every instruction", "why_tests_cant": "All pairs of configurations and all histories: tests use one market size.", "anchors": ["program/src/state/orderbook.rs::OrderBookState::new_order", "program/src/processor/new_order.rs::process", "program/src/state/critbit.rs::Slab::insert_leaf", "program/src/state/event_queue.rs::EventQueue::push_back"]}
{"id": "C84", "title": "The book can be rebuilt from what is made public", "statement": "A reader who sees, for every successful instruction, only the instruction, the summary it returned and the events it appended, and who knows nothing of matching (a fill makes the named order smaller by its base quantity, an out event removes it, an order reported as posted is added, cancelled ids are removed), has after any history exactly the resting orders of the market; sorted by id its copy is each side of the book, best order first. Starting from a correct copy of the book at any point of a history the copy stays correct.", "quantifier": "every valid configuration and every history of instructions of any length (up to the 2^63 instructions after which order ids stop being unique)", "why_tests_cant": "All histories, with any interleaving of orders, cancellations and consume_events; tests compare a few books with a few events.", "anchors": ["program/src/state/orderbook.rs::OrderBookState::new_order", "program/src/state/event_queue.rs::EventQueue::push_back", "program/src/processor/cancel_order.rs::process", "program/src/processor/mass_cancel_orders.rs::process"]}
{"id": "C85", "title": "Best execution", "statement": "The fills of a successful new_order are a best way of taking that quantity from the resting orders of the other side: for a buyer no choice of quantities from the resting asks (not more than each order has, none from the buyer's own orders unless DecrementTake is asked) gets at least as much base for a smaller exact value, and what is paid exceeds that of any such choice by less than one quote unit per fill; for a seller whose quote cap covers the whole order at the prices of all resting bids no choice gets a larger exact value for the same base. For a seller whose quote cap binds this is false: a bid whose remainder is below the minimum size is given up although the seller could still trade with it.", "quantifier": "every reachable market, every successful new_order, every allocation of quantities over the resting orders of the opposite side", "why_tests_cant": "All books, all orders and, for each, all other ways of taking: tests check one outcome.", "anchors": ["program/src/state/orderbook.rs::OrderBookState::new_order", "program/src/state/orderbook.rs::OrderBookState::find_bbo", "program/src/state/critbit.rs::Slab::find_min"]}
{"id": "C86", "title": "Editing slabs of the older format", "statement": "The functions of js/wasm that nothing calls keep a slab well formed (tree and free list share the used slots): remove_by_key on a key that is there returns its order, keeps all other orders in their sequence, and puts the freed slots at the head of the free list; on a key that is not there it changes nothing; any sequence of removals leaves exactly the orders not named; remove_min and remove_max take out the leftmost and the rightmost order; insert puts a node into the slot freed last or the first slot never used, changes no other slot and fails exactly when no slot is left; find_node_sequence lists the slots of the first orders from the left or the right; a header or node that is written is the one that is read; Slab::new panics exactly on what is shorter than a header or has a tag above 4; a slab is for bids exactly when its first byte is 3 and for asks exactly when it is 4; a slot is as long as a leaf but at least 32 bytes, which every node fits in, and capacity is the largest number of slots the account has room for; on bytes that are not a well-formed slab removing and listing return no error: they have an answer, panic, or go round for ever as they do where an inner node is its own child; insert returns an error only when no freed slot is left.", "quantifier": "every well-formed slab of any size and shape, every key, every node that fits, every sequence of removals", "why_tests_cant": "Trees and free lists of any shape; the crate's own tests check a few random trees.", "anchors": ["js/wasm/src/critbit.rs::Slab::remove_by_key", "js/wasm/src/critbit.rs::Slab::insert", "js/wasm/src/critbit.rs::Slab::remove", "js/wasm/src/critbit.rs::Slab::find_node_sequence", "js/wasm/src/critbit.rs::Slab::write_header"]}
{"id": "C87", "title": "The depth that is shown is the depth that can be traded", "statement": "A successful new_order that is not post-only, owns none of the resting orders it accepts (or asked for DecrementTake), and whose match limit and quote cap suffice for what it wants (for a seller: whose limit price is at least one quote unit per base unit) takes the acceptable resting orders one after the other, best first, of each as much as there is, until it has all it wants or there are no more, each piece at its rounded value. So it trades exactly the smaller of its base cap and the depth at acceptable prices, and that depth is the total of the price levels the client shows.", "quantifier": "every reachable market, every successful new_order meeting the stated conditions", "why_tests_cant": "All books and all orders; a test checks the depth of one book.", "anchors": ["program/src/state/orderbook.rs::OrderBookState::new_order", "js/src/slab.ts::Slab.getL2DepthJS"]}
{"id": "C88", "title": "A place in the queue is never lost", "statement": "Take an order that rests both before and after any number of transactions. Every order that is then served before it was served before it already, with at least the quantity it now has, or rests at a strictly better price. At its own price, the orders ahead of it are some of those that were ahead of it, in the same sequence, and their total quantity has not grown. The order itself keeps its id and callback info, and its quantity has not grown.", "quantifier": "every reachable market, every order resting on it, every sequence of transactions after which the order still rests (below 2^63 transactions in all)", "why_tests_cant": "All histories of arbitrary length; a test follows one order through one history.", "anchors": ["program/src/state/orderbook.rs::OrderBookState::new_order", "program/src/state/event_queue.rs::EventQueue::gen_order_id", "program/src/state/critbit.rs::Slab::insert_leaf"]}
{"id": "C89", "title": "How the best prices move", "statement": "A successful new_order never improves the best price of the opposite side and never worsens the best price of its own side. The latter stays, or it becomes the limit price of the order just posted, which is then strictly better than what was there. Cancelling never improves a best price, consuming events changes none. Over any number of transactions, a best price that is better than at the start is the price of an order of that side posted in between.", "quantifier": "every reachable market, every instruction, every sequence of transactions (below 2^63 in all)", "why_tests_cant": "All books, including full ones where the worst order is evicted; all histories.", "anchors": ["program/src/state/orderbook.rs::OrderBookState::new_order", "program/src/state/orderbook.rs::OrderBookState::get_spread", "program/src/processor/cancel_order.rs::process"]}
{"id": "C90", "title": "EventQueueFull exactly if the events do not fit", "statement": "Take two markets that differ at most in their event queues (size, and what is pending), and an order that one of them accepts. The other one accepts it, with the same answer and the same events, exactly if those events fit into the free part of its queue; otherwise it answers EventQueueFull. Every market that can arise also arises, with the same orders, with any larger queue that is empty, so the comparison can always be made.", "quantifier": "every pair of reachable markets with the same orders and rules, every order one of them accepts", "why_tests_cant": "All books, orders and fill levels of the queue; a test fills one queue.", "anchors": ["program/src/state/event_queue.rs::EventQueue::push_back", "program/src/state/orderbook.rs::OrderBookState::new_order"]}
{"id": "C91", "title": "CancelProvide is cancelling and then trading", "statement": "A successful new_order with CancelProvide is the same as first cancelling, one by one, the taker's own opposite orders that it meets (those named by its events), and then sending the order with a match limit smaller by their number: same answer, same book afterwards, same events except those of the removed orders. The second order meets no order of its own, so its self-trade behaviour may be any of the three. In particular there are never more removals than the match limit.", "quantifier": "every reachable market (history below 2^63), every successful order with CancelProvide, every self-trade behaviour of the second order", "why_tests_cant": "All books with any number of own orders between others, all match limits and queue fill levels, including those where the side of the new order is full and evicts.", "anchors": ["program/src/state/orderbook.rs::OrderBookState::new_order", "program/src/processor/cancel_order.rs::process"]}
{"id": "C92", "title": "No cast is misaligned", "statement": "The alignment checks of the bytemuck casts never fail on the chain. If account data starts at a multiple of 8, u128 has alignment 8 and the callback info at most 8, then the three from_buffer functions and the writing of tags do, on accounts of every size and content, exactly what they do without the checks. Where u128 has alignment 16 (host builds), reading a slab panics unless the address plus 8 times the number of inner nodes is a multiple of 16, since InnerNode (unlike LeafNode and FillEvent) keeps a u128 on every target. At an address that is not a multiple of 8 a market cannot be read.", "quantifier": "every address, every account size and content, every callback info type of alignment up to 8", "why_tests_cant": "The tests run on one target, with addresses given by the allocator; the offsets depend on the account size.", "anchors": ["program/src/state/critbit.rs::Slab::from_buffer", "program/src/state/critbit.rs::InnerNode", "program/src/state/event_queue.rs::EventQueue::from_buffer", "program/src/state/market_state.rs::MarketState::from_buffer"]}
{"id": "C93", "title": "The work of an instruction does not grow with the book", "statement": "Count every entry into the body of a loop (the descents of find_min_max, insert_leaf and remove_by_key, the matching loop, the loop of mass_cancel_orders), also on failing instructions. A new order takes at most 259 * match_limit + 516 rounds, and also at most 259 * (free event slots + 1) + 516; a cancellation at most 129; a mass cancellation at most 130 per id; consuming events none. More precisely a descent takes at most as many rounds as there are orders on that side, and cancelling a resting order takes exactly as many as there are bits at which its id parts from another id of that side. Counting changes no result, and there are at least half as many rounds as events pushed by matching.", "quantifier": "every reachable market (all sizes, all histories), every instruction with arguments of their types, successful or not", "why_tests_cant": "Benchmarks measure a few random books of one depth; the bound is over all books, ids and histories, including adversarial ids.", "anchors": ["program/src/state/critbit.rs::Slab::find_min_max", "program/src/state/critbit.rs::Slab::insert_leaf", "program/src/state/critbit.rs::Slab::remove_by_key", "program/src/state/orderbook.rs::OrderBookState::new_order", "program/src/processor/mass_cancel_orders.rs::process", "program/benches/deep_ob.rs"]}
{"id": "C94", "title": "The unit of the quote currency does not matter", "statement": "Count the quote currency in a unit of which k make up an old one: multiply the tick size, all limit prices and all quote caps by k, and the price part of every id to be cancelled. If the prices of all orders that may be posted are whole, the history runs as before: the same orders rest at k times the price, the same events are pending with k times the quote, every instruction succeeds or fails as before and returns the same base quantities and k times the quote quantities. (With fractional prices rounding makes a difference, see the witness.)", "quantifier": "every factor k > 0, every configuration and every history of instructions whose numbers fit in 64 bits in both units (for mass cancellations: whose returned quote total fits)", "why_tests_cant": "A metamorphic relation between two whole executions for all factors and histories; the tests run each with one set of numbers.", "anchors": ["program/src/state/orderbook.rs::OrderBookState::new_order", "program/src/processor/new_order.rs::process", "program/src/processor/cancel_order.rs::process", "program/src/processor/mass_cancel_orders.rs::process"]}
{"id": "C95", "title": "Only the order of prices matters, and not the unit of the base currency; buying and selling are mirror images", "statement": "Replace every price of a history by another one such that the order of prices stays the same; or such that it is reversed, and exchange buying and selling (and the capacities of the two sides). Multiply all base quantities and the minimum base order size by a positive number. Quote caps may be any that are never reached, tick sizes any that the prices respect. Then the history runs as before: the same orders rest, with the new prices; the same trades happen in the same sequence between the same orders and users, of the same base quantities (times that number); the same orders are evicted, cancelled and announced; every instruction succeeds or fails as before and returns the same base quantities (times that number) and the corresponding order id. Only quote amounts differ. (Prices below one are excluded: there a trade may be worth nothing, see the witness.)", "quantifier": "every strictly monotone change of prices, every change of the unit of base quantities, every pair of configurations and every history of instructions with prices of at least one whose quote caps and mass cancellation totals leave room for the new prices", "why_tests_cant": "A metamorphic relation between two whole executions for all changes of prices and all histories; the tests run a few orders at fixed prices, mostly on one side.", "anchors": ["program/src/state/orderbook.rs::OrderBookState::new_order", "program/src/state/critbit.rs::Slab::find_min_max", "program/src/state/event_queue.rs::EventQueue::gen_order_id", "program/src/state.rs::get_side_from_order_id", "program/src/processor/cancel_order.rs::process", "program/src/processor/mass_cancel_orders.rs::process"]}
{"id": "C96", "title": "The number of events is bounded by the number of orders", "statement": "Of the trades of one new_order at most one (for a seller at most two) leaves the resting order it meets on the book: the fills are not more than the out events of the other side plus one (two). A buyer trades with each resting order at most once, a seller at most twice. Over any history every posted order leaves the book by one out event or one cancellation or still rests, the fills are at most the out events plus two per new order, and so there are never more than four events per new order placed, however large the orders and the book. Both bounds for one order are reached: a seller whose quote cap binds may trade twice in a row with the same bid.", "quantifier": "every reachable market and every order; every history of instructions (shorter than 2^63)", "why_tests_cant": "An amortised bound over unbounded histories: one order may make arbitrarily many trades, paid for by the orders posted before. The double trade with one bid needs a fractional price and a particular quote cap, which no test has.", "anchors": ["program/src/state/orderbook.rs::OrderBookState::new_order", "program/src/state/event_queue.rs::EventQueue::push_back"]}
{"id": "C97", "title": "An order is served at its price over its whole life", "statement": "Take all fills of one resting order over its whole life, in however many parts and by however many takers: in total a selling order receives at least its price for the base sold and less than one quote unit more per fill; a buying order pays in total at most its price and less than one quote unit less per fill. The gain from rounding does depend on the parts (witness).", "quantifier": "every history of instructions (shorter than 2^63) and every order id", "why_tests_cant": "A statement about sums over all fills of an order in all histories; the tests check single fills at integer prices, where nothing is rounded.", "anchors": ["program/src/state/orderbook.rs::OrderBookState::new_order", "program/src/state/event_queue.rs::EventQueue::gen_order_id", "program/src/state/critbit.rs::LeafNode::price"]}
{"id": "C98", "title": "More resting orders do not hurt who takes", "statement": "For one order and two markets, the second at least as deep as the first at every price on the side the order takes from, and no acceptable order there owned by the taker (or DecrementTake asked): if its match limit and quote cap suffice in the deeper market, the order trades at least as much base there; a buyer who gets no more base there pays no larger exact value, and in quote units no more but for less than one unit per fill; a seller whose quote cap covers the whole order and who sells as much there receives no smaller exact value, with the same rounding. A market with additional orders is deeper, one from which an order was cancelled is less deep. With a binding quote cap it is false, for buyers too: each fill is rounded, and a better ask can use up the cap.", "quantifier": "every two reachable markets (also of different configurations) with the stated relation, every order that succeeds on both", "why_tests_cant": "Relates pairs of executions on every pair of books; the relation is a condition at every price.", "anchors": ["program/src/state/orderbook.rs::OrderBookState::new_order", "program/src/state/orderbook.rs::OrderBookState::find_bbo"]}
{"id": "C99", "title": "What a maker gets is determined by what is served before it", "statement": "Under the conditions of C87 (the taker may take, owns none of the orders it accepts, match limit and quote cap suffice) a resting order whose price the taker accepts trades exactly the smaller of its quantity and what the taker's base cap leaves after all orders served before it. So of two orders, in whatever markets, the one that is no smaller and has no more before it gets no less of the same taker; and as long as no better price is offered on its side, an order that waits through any number of transactions gets no less of the same taker than it would have got before, as far as it still goes. Orders that follow each other in the queue trade together the smaller of what they are together and what is left of the taker's base cap before the first of them, so it does not matter into how many orders the queue is divided.", "quantifier": "every reachable market, every successful new_order meeting the conditions, every resting order; every sequence of transactions (below 2^63 in all)", "why_tests_cant": "All books, all takers, all positions in the queue, all histories in between.", "anchors": ["program/src/state/orderbook.rs::OrderBookState::new_order", "program/src/state/orderbook.rs::OrderBookState::find_bbo"]}
{"id": "C100", "title": "Everyone has what they traded", "statement": "In the setting of C68 look at the wallets of any group of users (told apart by callback infos; one user, or all of them). After every history, whatever the others do, what the group has in its wallets, in its resting orders and in pending events is exactly the base it bought less the base it sold, and the quote it sold for less the quote it paid, but for at most one quote unit lost for each of its bids posted and each fill of such a bid. So no user can pay for the trades of another. Once the group has no resting order and no pending event, all of that is in its wallets. What leaves the vault comes into the wallets of the group or of the others, to the last unit, and the other way round.", "quantifier": "every valid configuration, every history of at most 2^63 well-typed transactions (failed ones included), every set of callback infos", "why_tests_cant": "A test fixes the users and the trades; an amount paid to or kept from the wrong user in one rare combination of fills, evictions, self-trades and cancellations leaves all totals right.", "anchors": ["program/src/state/orderbook.rs::OrderBookState::new_order", "program/src/state/event_queue.rs::EventQueue::push_back", "program/src/processor/consume_events.rs::process"]}
{"id": "C101", "title": "Who keeps to a price does not lose at it", "statement": "Take any group of users and any price such that no order of the group bids above it or asks below it. Over every history, whatever the others do, the group has bought at no more and sold at no less than that price, up to less than one quote unit for each fill in which it was the taker. So at that price all it has (wallets, resting orders and pending events, in the setting of C100) is worth no less than before, up to those and one quote unit for each bid it posted and each fill of such a bid. Both allowances are needed.", "quantifier": "every valid configuration, every history of at most 2^63 well-typed transactions (failed ones included), every set of callback infos, every price", "why_tests_cant": "Tests check a few trades at known prices; that no sequence of orders by others, self-trade, eviction, cancellation or rounding makes a user trade on bad terms is a statement about all histories.", "anchors": ["program/src/state/orderbook.rs::OrderBookState::new_order", "program/src/state/event_queue.rs::EventQueue::gen_order_id", "program/src/processor/cancel_order.rs::process", "program/src/processor/consume_events.rs::process"]}
{"id": "C102", "title": "No call is refused for who makes it", "statement": "The program looks at no signature. With nothing but the public addresses of a market anyone can cancel any resting order (and nothing else changes), discard any number of waiting events, and, by calls that all succeed, empty the market, close it and have the lamports of its four accounts transferred to any account outside it; no other account plays a part or changes. A program that embeds the order book must keep strangers off its accounts.", "quantifier": "every market on every chain (with at most 2^63 ids given out), every resting order, every n, every target account that can take the lamports, any further accounts", "why_tests_cant": "The tests only call as the creator; that there is no state in which a stranger's call is refused is a statement about all states.", "anchors": ["program/src/processor/cancel_order.rs::process", "program/src/processor/consume_events.rs::process", "program/src/processor/close_market.rs::process", "program/src/processor.rs::process_instruction"]}
{"id": "C103", "title": "Who comes first is not worse off", "statement": "Whatever number of new orders of one side, cancellations and consumption, by whomever and failed ones included, comes between: the market is afterwards no deeper, at any price, for a taker of that side. So an order trades at least as much base before them as after them if, coming first, it owns none of the orders it accepts (or asks for DecrementTake) and its match limit and quote cap suffice; a buyer who gets no more base pays no larger exact value, and a seller who sells as much (with a quote cap that covers the order) receives no smaller one, up to less than one quote unit per fill. With a binding quote cap it is false for a buyer.", "quantifier": "every reachable market, every sequence of transactions whose new orders are on the taker's side (below 2^63 in all), every order that succeeds before and after", "why_tests_cant": "Relates pairs of executions over all books and all sequences of rivals.", "anchors": ["program/src/state/orderbook.rs::OrderBookState::new_order", "program/src/state/orderbook.rs::OrderBookState::find_bbo", "program/src/processor/cancel_order.rs::process"]}
{"id": "C104", "title": "Takers of opposite sides do not notice each other", "statement": "Two orders of opposite sides neither of which may be posted can be executed in either order: if they succeed one after the other, they succeed in the other order too, with the same answers and the same events each; afterwards the same orders rest, with the same sequence number, and the queues differ only in which order's events come first. So each is answered as if the other were not there. If one of them may be posted this is false.", "quantifier": "every reachable market, every two such orders", "why_tests_cant": "Relates two executions for all markets and orders; the shared event queue makes success of the one depend on the other.", "anchors": ["program/src/state/orderbook.rs::OrderBookState::new_order", "program/src/state/event_queue.rs::EventQueue::push_back"]}
{"id": "C105", "title": "Who came first matters only within a price", "statement": "New orders are posted one after the other, without trading, cancelling or evicting anything, exactly if each can be posted by itself (posting allowed, price a positive multiple of the tick size, match limit not zero, what its caps pay for is at least the minimum size), none crosses a resting order or another one of them, and both sides have room for all. Then at every price the new orders stand behind those that were there, in the sequence in which they came, each with its base cap or what its quote cap pays at its price. So the same orders in another sequence, which within every side and price is the same, are posted as well and give a book that shows the same (price, quantity and callback info of every order, in the same ranking). Within a price the sequence matters.", "quantifier": "every reachable market, every list of new orders of any length, every rearrangement of it", "why_tests_cant": "Relates executions for all markets, all lists of orders and all rearrangements; the number of rearrangements grows faster than any test can follow.", "anchors": ["program/src/state/orderbook.rs::OrderBookState::new_order", "program/src/state/event_queue.rs::EventQueue::gen_order_id", "program/src/state/critbit.rs::Slab::insert_leaf"]}
{"id": "C106", "title": "How often events must be consumed", "statement": "Whoever adds 2*match_limit for each new order to the number of events in the queue, and subtracts what consume_events takes out (never below zero), never counts fewer events than there are, over any sequence of instructions. If by this count there are always 2*match_limit free places before each new order, no order is ever answered EventQueueFull. So it is enough to consume 2*match_limit events after every order, if the queue holds that many. 2*match_limit cannot be replaced by less: an order with match limit 1 can add two events, and is refused by a queue with one place.", "quantifier": "every reachable market, every sequence of instructions of any length, every queue size", "why_tests_cant": "A bound that must hold over sequences of any length, for every market state and every interleaving of orders, cancels and consumption.", "anchors": ["program/src/state/orderbook.rs::OrderBookState::new_order", "program/src/state/event_queue.rs::EventQueue::push_back", "program/src/state/event_queue.rs::EventQueue::pop_n"]}
{"id": "C107", "title": "A quantity is not got for less in pieces", "statement": "What new orders of one side trade in all (any number of them, by whomever, with cancellations, consumption and failed transactions between) is taken from the orders that rested opposite to them at the start: from none more than it had, in all what the fills say, for the exact value rounded in favour of the makers by less than one quote unit per fill. So who buys a quantity by one order does not pay a larger exact value than by any number of own orders that get as much in all, whatever their limits and caps, and in quote units not more but for less than one unit per fill of the one order; who sells by one order whose quote cap covers it does not get a smaller exact value than by any number of own orders that sell as much, with the same rounding. Without the rounding it is false: one order can be dearer by a quote unit than two.", "quantifier": "every reachable market, every sequence of transactions whose new orders are on one side (below 2^63 in all), every order that succeeds at its start", "why_tests_cant": "Compares one execution with sequences of executions of any length and any parameters, on all markets.", "anchors": ["program/src/state/orderbook.rs::OrderBookState::new_order", "program/src/state/orderbook.rs::OrderBookState::find_bbo"]}
{"id": "C108", "title": "The check of the older slab format, and its search", "statement": "check_invariants of js/wasm passes exactly on slabs that hold a crit-bit tree (ids separated by the bit each inner node looks at, inner keys that begin as the ids below them) and a chained list of free slots that together make up as many slots as have been in use; otherwise it panics, and it never runs for ever, whatever the bytes are. In a slab that passes no slot is used twice, the ids grow from left to right, and find_by_key returns the slot of the order with the id sought, and nothing if there is none; on other slabs it returns no error either: it has an answer, panics, or goes round for ever. Slabs that are well formed in the sense of C86 pass, and still pass after any sequence of removals. A wrong number of orders and slots that were never given out go unnoticed.", "quantifier": "every slab of any size, with any bytes, every key and every sequence of removals", "why_tests_cant": "the crate has no tests that call the check; a test can only try some slabs, not show that passing means being well formed", "anchors": ["js/wasm/src/critbit.rs:158-173", "js/wasm/src/critbit.rs:478-587"]}
{"id": "C109", "title": "The life of an order", "statement": "Write down every posting, event and cancellation of a history in the order they happen. For every id the notes about it are: none, and nothing rests under it; or first the posting of one order, then its fills (each of a positive quantity, worth exactly the maker's price, with a taker of the other side and the callback info of the posting), then nothing more while it rests with the quantity its fills left, or exactly one end, an out event or a cancellation, giving back the quantity the fills left, after which nothing is ever noted about the id again.", "quantifier": "every configuration, every history of at most 2^63 instructions, every id", "why_tests_cant": "A test follows a few orders through short scripts; that no order is ever traded before it is posted or after its end, in any interleaving, is a statement about all histories.", "anchors": ["program/src/state/orderbook.rs::OrderBookState::new_order", "program/src/processor/cancel_order.rs::process", "program/src/processor/mass_cancel_orders.rs::process", "program/src/state/event_queue.rs::EventQueue::gen_order_id"]}
{"id": "C110", "title": "An order keeps its slot", "statement": "An order that rests before and after any sequence of transactions is found by find_by_key in the same leaf slot both times, and that slot holds its id, what is left of it, and the callback info it was posted with. Two orders of a side are in different slots. The id of an order is in at most one of the slots of its side used so far, also after the order has left the book: removed leaves keep their key until the slot is used again, but no id is ever written twice. On the chain the id and quantity of the order stay in the same 24 bytes of the slab account, and its callback info in the same bytes, until the market is closed.", "quantifier": "every configuration, every history in which at most 2^63 order ids are given out, every order resting at two moments of it, every used slot; on the chain, every history of the chain up to the closing of the market", "why_tests_cant": "Slots are reused through a free list as orders come and go; a test sees a few patterns of reuse, and tests of the slab compare contents and never positions.", "anchors": ["program/src/state/critbit.rs::Slab::insert_leaf", "program/src/state/critbit.rs::Slab::remove_by_key", "program/src/state/critbit.rs::Slab::find_by_key", "program/src/state/orderbook.rs::OrderBookState::new_order"]}
{"id": "C111", "title": "A market keeps its accounts", "statement": "Until a market is closed, no step of the chain (calls of the program on this or any other market, with any accounts and data, calls of the stand-alone program, and anything others can do in between) changes a single byte of its market account: the queue, the two slabs, the tick size and the minimum order size stay those it was created with. Its four accounts keep their owner and their size and never lose lamports, also while other markets are closed.", "quantifier": "every history of the chain, every market account, no bound on steps or accounts", "why_tests_cant": "A test would have to try every instruction with every choice of accounts, on any number of markets, in every order.", "anchors": ["program/src/processor.rs::process_instruction", "program/src/entrypoint.rs::process_instruction", "program/src/processor/close_market.rs::process", "program/src/state/market_state.rs::MarketState"]}
{"id": "C112", "title": "The accounts of an open market are rent exempt", "statement": "In every history of the chain, the market account, the event queue and the two slabs of every market that is not closed are rent exempt. The program tests this only in create_market; it lasts because the accounts neither lose lamports nor change their size until the market is closed. So the runtime never collects rent from them or removes them while the market is open.", "quantifier": "every history of the chain, every market account, every rent rule by which more lamports never lose the exemption", "why_tests_cant": "Rent is tested once, at creation; that nothing afterwards takes it away concerns every instruction on every market, including the closing of others.", "anchors": ["program/src/processor/create_market.rs::check_rent", "program/src/processor.rs::process_instruction", "program/src/processor/close_market.rs::process"]}
{"id": "C113", "title": "What has left does not come back, what stays does not grow", "statement": "An order that rested at some moment and does not rest at a later one never rests again after that, on either side of the book, and no cancel_order of its id ever succeeds again: in particular no order is cancelled, and paid back, twice. An order that rests at two moments has at the later one at most the quantity of the earlier one, the same price and the same callback info. The same holds between any three moments of a history of the chain until the market is closed.", "quantifier": "every configuration, every history in which at most 2^63 order ids are given out, any moments of it; on the chain, every history of the chain up to the closing of the market", "why_tests_cant": "Concerns ids over unboundedly many later transactions, with slots and free lists in any state.", "anchors": ["program/src/state/orderbook.rs::OrderBookState::new_order", "program/src/processor/cancel_order.rs::process", "program/src/state/event_queue.rs::EventQueue::gen_order_id"]}
{"id": "C114", "title": "Where an event is", "statement": "The head of the event queue is the number of events consumed over the life of the market, modulo the number of slots, and event number k of that life (counted from 0) is, as long as it is pending, in slot k modulo the number of slots; nothing but consume_events moves the head. On the chain a pending event stays in the same 40 bytes of the queue account, and its callback infos in the same bytes, until it is consumed or the market is closed, and the head moves on by exactly the number of events consumed.", "quantifier": "every configuration, every history of any length; on the chain, every history of the chain up to the closing of the market", "why_tests_cant": "Positions in a ring after any number of wrap-arounds and any interleaving of pushes and pops.", "anchors": ["program/src/state/event_queue.rs::EventQueue::push_back", "program/src/state/event_queue.rs::EventQueue::pop_n", "program/src/processor/consume_events.rs::process"]}
{"id": "C115", "title": "The market is in balance", "statement": "Over any history and for any set of orders chosen by id and callback information (a side, a price, the orders of one user, all): the base quantity they were posted with is the sum of what was traded of them while they rested, what was taken out, what was cancelled, and what still rests. The base quantities of all order summaries add up to the quantity traded plus the quantity posted, so to twice the quantity traded plus what was taken out, cancelled, or rests. The next order number lies between the number of orders posted and the number of new orders placed.", "quantifier": "every configuration, every history of at most 2^63 well-typed transactions (failed ones included), every predicate on ids and callback information", "why_tests_cant": "Sums over whole histories of any length, for every set of orders.", "anchors": ["program/src/state/orderbook.rs::OrderBookState::new_order", "program/src/processor/new_order.rs::process", "program/src/processor/cancel_order.rs::process", "program/src/state/event_queue.rs::EventQueue::gen_seq_num"]}
