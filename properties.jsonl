{"id": "C01", "title": "Every final response an INVITE client delivers is acknowledged exactly once", "statement": "For any sequence of events fed to a client INVITE transaction, each final response (>= 200) handed to the transaction user is accompanied by exactly one generated ACK for that same response, carrying the right 2xx / non-2xx kind, and no ACK is ever generated without such a delivery.", "quantifier": "all event sequences (send, provisional/final responses, timers A/B/D, transport errors), all statuses, both transport classes", "why_tests_cant": "a unit test drives one hand-picked event order; the claim is about every interleaving of responses, timers and errors of any length", "anchors": ["crates/sip-transaction/src/fsm.rs: ClientInviteFsm::on_event, handle_final"]}
{"id": "C02", "title": "An INVITE client never retransmits the INVITE after any response", "statement": "Once a client INVITE transaction has consumed any provisional or final response, a transport error or Timer B, it never again emits a retransmission of the INVITE, whatever happens next; and the retransmitted bytes are always the INVITE originally submitted.", "quantifier": "all event sequences and all continuations", "why_tests_cant": "a unit test drives one hand-picked event order; the claim is about every interleaving of responses, timers and errors of any length", "anchors": ["crates/sip-transaction/src/fsm.rs: ClientInviteFsm::handle_timer_a, handle_provisional, handle_final"]}
{"id": "C03", "title": "Client retransmission intervals follow the doubling schedule capped at T2, only over unreliable transports", "statement": "Over UDP the n-th firing of the retransmission timer of a client transaction (INVITE: timer A, non-INVITE: timer E) re-arms it with min(2^n * T1, T2); over TCP/TLS the timer is never armed and no copy of the request is ever retransmitted.", "quantifier": "all n, all T1 <= T2, all event sequences", "why_tests_cant": "the schedule must hold for every number of firings and every timer configuration", "anchors": ["crates/sip-transaction/src/fsm.rs: ClientInviteFsm::handle_timer_a, ClientNonInviteFsm::handle_timer_e", "crates/sip-transaction/src/timers.rs: TransactionTimers::duration"]}
{"id": "C04", "title": "A non-INVITE client delivers at most one final response", "statement": "A client non-INVITE transaction delivers at most one final response to its user, never delivers a provisional after the final, and never delivers anything after it has reported termination.", "quantifier": "all event sequences", "why_tests_cant": "a unit test drives one hand-picked event order; the claim is about every interleaving of responses, timers and errors of any length", "anchors": ["crates/sip-transaction/src/fsm.rs: ClientNonInviteFsm::on_event"]}
{"id": "C05", "title": "A non-INVITE server answers with one final response and repeats exactly what it sent", "statement": "A server non-INVITE transaction transmits at most one distinct final response; every retransmission it emits is identical to the most recent response it sent; after termination it transmits nothing.", "quantifier": "all event sequences incl. request retransmissions", "why_tests_cant": "a unit test drives one hand-picked event order; the claim is about every interleaving of responses, timers and errors of any length", "anchors": ["crates/sip-transaction/src/fsm.rs: ServerNonInviteFsm::on_event, on_retransmit"]}
{"id": "C06", "title": "An INVITE server never retransmits a 2xx and stops retransmitting on ACK", "statement": "A server INVITE transaction retransmits (timer G) only the latest non-2xx final response it sent, never a 2xx, and after it consumes the ACK it never emits a timer-driven retransmission unless the transaction user sends another final response.", "quantifier": "all event sequences", "why_tests_cant": "a unit test drives one hand-picked event order; the claim is about every interleaving of responses, timers and errors of any length", "anchors": ["crates/sip-transaction/src/fsm.rs: ServerInviteFsm::on_event"]}
{"id": "C07", "title": "Terminated transactions stay terminated", "statement": "Each of the four transaction state machines never leaves its Terminated state, and moves only forward in the RFC 3261 order of states.", "quantifier": "all event sequences and all four machines", "why_tests_cant": "a unit test drives one hand-picked event order; the claim is about every interleaving of responses, timers and errors of any length", "anchors": ["crates/sip-transaction/src/fsm.rs: on_event of the four FSMs"]}
{"id": "C08", "title": "A started client transaction always has a running timer that bounds its life", "statement": "At every point after a client transaction has been started and until it terminates, at least one of its timers is armed (interpreting its schedule/cancel actions), and expiry of that timer leads to termination; so no schedule can leave a client transaction alive for ever.", "quantifier": "all event sequences", "why_tests_cant": "liveness under every schedule of losses cannot be shown by finitely many runs", "anchors": ["crates/sip-transaction/src/fsm.rs: actions of ClientInviteFsm and ClientNonInviteFsm", "crates/sip-transaction/src/timers.rs: TransactionTimers::duration"]}
{"id": "C09", "title": "A completed server transaction always has a running timer that bounds its life", "statement": "At every point at which a server transaction is in Completed or Confirmed, the timer whose expiry terminates it is armed (H or I for INVITE, J for non-INVITE); after termination the retransmission timer G no longer causes transmissions.", "quantifier": "all event sequences", "why_tests_cant": "same", "anchors": ["crates/sip-transaction/src/fsm.rs: actions of ServerInviteFsm and ServerNonInviteFsm"]}
{"id": "C10", "title": "Transaction tables never exceed their configured limits", "statement": "With limits >= 1, after any sequence of operations the number of live server (client) transactions held by the transaction manager is at most the configured limit, and starting a new transaction at the limit evicts exactly the oldest one.", "quantifier": "all sequences of manager operations, all limits >= 1", "why_tests_cant": "the bound must hold for every arrival order and every load", "anchors": ["crates/sip-transaction/src/manager.rs: enforce_server_limit, enforce_client_limit, receive_request, start_client_inner"]}
{"id": "C11", "title": "A retransmitted request is never handed to the application twice", "statement": "While a server transaction is live, further copies of its request (same branch, method) are absorbed by it: they produce no new transaction and are not delivered to the transaction user; only a response already sent may be repeated.", "quantifier": "all histories and numbers of retransmissions", "why_tests_cant": "exactly-once delivery has to hold for every number and timing of duplicates", "anchors": ["crates/sip-transaction/src/manager.rs: receive_request"]}
{"id": "C12", "title": "A response only ever affects the client transaction with its branch and method", "statement": "Receiving a response leaves every client transaction other than the one keyed by its top Via branch and CSeq method unchanged; if there is none it changes nothing and delivers nothing from the transaction layer.", "quantifier": "all tables and responses", "why_tests_cant": "isolation between concurrent transactions quantifies over all table contents", "anchors": ["crates/sip-transaction/src/manager.rs: receive_response", "crates/sip-transaction/src/lib.rs: branch_from_via, TransactionKey"]}
{"id": "C13", "title": "RFC 3263 failover works through the targets in order and reports failure only when all fail", "statement": "When a client request is started with a list of targets, the manager sends to them in list order: it stays with a target until a send to it fails, then moves to the next one and never back; the user is told of a transport failure only after a send to every target has failed, and then exactly once.", "quantifier": "all target lists and all patterns of transport success/failure", "why_tests_cant": "exponentially many success/failure patterns", "anchors": ["crates/sip-transaction/src/manager.rs: dispatch_with_failover, start_client_transaction_with_targets, handle_transport_error"]}
{"id": "C14", "title": "In-dialog requests from the peer are accepted in strictly increasing CSeq order", "statement": "For any history of in-dialog requests, the CSeq numbers of the accepted non-ACK requests are strictly increasing (with steps of at most 1000 after the first) and never exceed 2^31-1; a rejected request changes nothing.", "quantifier": "all histories of requests", "why_tests_cant": "replay protection must hold for every order and repetition", "anchors": ["crates/sip-dialog/src/lib.rs: Dialog::update_from_request"]}
{"id": "C15", "title": "Local CSeq numbers never repeat within a dialog", "statement": "Successive locally generated requests in a dialog get strictly increasing CSeq numbers.", "quantifier": "all numbers of calls and all starting values", "why_tests_cant": "holds only up to the 32-bit limit, which no test reaches", "anchors": ["crates/sip-dialog/src/lib.rs: Dialog::next_local_cseq"]}
{"id": "C16", "title": "Dialogs never come back to life", "statement": "Under any sequence of responses, confirmations and terminations a dialog's state only moves Early -> Confirmed -> Terminated; a terminated dialog stays terminated.", "quantifier": "all operation histories", "why_tests_cant": "a unit test drives one hand-picked event order; the claim is about every interleaving of responses, timers and errors of any length", "anchors": ["crates/sip-dialog/src/lib.rs: Dialog::confirm, terminate, update_from_response"]}
{"id": "C17", "title": "The route set is frozen once the dialog is confirmed", "statement": "After a dialog is confirmed no response or request changes its route set; only the remote target can be refreshed.", "quantifier": "all histories", "why_tests_cant": "a unit test drives one hand-picked event order; the claim is about every interleaving of responses, timers and errors of any length", "anchors": ["crates/sip-dialog/src/lib.rs: Dialog::update_from_response, update_from_request"]}
{"id": "C18", "title": "The dialog table is bounded and per-call early dialogs are bounded", "statement": "After any sequence of inserts and removals the manager holds at most 10000 dialogs and, for dialogs inserted as early, at most 100 early ones per Call-ID at insertion.", "quantifier": "all operation sequences", "why_tests_cant": "bound under every load", "anchors": ["crates/sip-dialog/src/lib.rs: DialogManager::insert"]}
{"id": "C19", "title": "Both ends of a call address the same dialog", "statement": "For a request/response pair creating a dialog, the UAC's and the UAS's dialog identifiers are mirror images, and an in-dialog request built from one end's tags is matched by the other end's lookup to exactly that dialog and no other.", "quantifier": "all call-ids and tags", "why_tests_cant": "must hold for all identifiers", "anchors": ["crates/sip-dialog/src/lib.rs: DialogId, find_by_request, matches_request"]}
{"id": "C20", "title": "A reliable provisional is acknowledged at most once and only by a matching PRACK", "statement": "A PRACK is accepted iff there is a registered, not yet acknowledged reliable provisional for the dialog with the same RSeq whose CSeq and method also match; accepting it makes every later identical PRACK fail; at most 10 provisionals per dialog are pending.", "quantifier": "all sequences of registrations and PRACKs", "why_tests_cant": "a unit test drives one hand-picked event order; the claim is about every interleaving of responses, timers and errors of any length", "anchors": ["crates/sip-dialog/src/prack_validator.rs: register_reliable_provisional, validate_prack"]}
{"id": "C21", "title": "RSeq numbers handed out for a dialog are valid and strictly increasing", "statement": "Every RSeq returned for a dialog lies in 1..2^31-1 and successive ones increase by one.", "quantifier": "all random initial values and numbers of calls", "why_tests_cant": "fails only near 2^31, outside any test", "anchors": ["crates/sip-dialog/src/lib.rs: RSeqManager::next_rseq"]}
{"id": "C22", "title": "Session-timer negotiation respects Min-SE and picks exactly one refresher", "statement": "The negotiated session interval is never below the applicable minimum and never above what both sides asked unless the minimum forces it, and the two parties always agree on which of them refreshes.", "quantifier": "all requested intervals, Min-SE values, refresher parameters", "why_tests_cant": "all combinations of integers and roles", "anchors": ["crates/sip-dialog/src/session_timer_manager.rs: negotiate_session_expires, determine_refresher_role"]}
{"id": "C23", "title": "No header injection", "statement": "A header accepted by the API never contains CR, LF or NUL, so a serialized message contains exactly one line per header in order, whatever strings the application supplied.", "quantifier": "all strings", "why_tests_cant": "all inputs", "anchors": ["crates/sip-core/src/headers.rs: Header::new, Headers::push", "crates/sip-parse/src/lib.rs: serialize_request, serialize_response"]}
{"id": "C24", "title": "Header collections are bounded and keep order", "statement": "A header collection never exceeds 200 entries through any sequence of operations; get returns the first and get_all every case-insensitive match in insertion order.", "quantifier": "all operation sequences", "why_tests_cant": "all histories", "anchors": ["crates/sip-core/src/headers.rs: Headers"]}
{"id": "C25", "title": "Max-Forwards strictly decreases so forwarding stops", "statement": "Each successful forward lowers Max-Forwards by exactly one (69 if it was absent); a request with Max-Forwards 0 or an unparsable/oversized value is never forwarded; so a request can be forwarded along a chain of these proxies at most 255 times.", "quantifier": "all messages and all chains of forwards", "why_tests_cant": "termination over unbounded chains", "anchors": ["crates/sip-core/src/max_forwards.rs: decrement_max_forwards", "crates/sip-proxy/src/lib.rs: check_max_forwards"]}
{"id": "C26", "title": "Method tokens round-trip", "statement": "Formatting a method and parsing it back yields the same method; parsing is case-insensitive for known methods and accepts exactly the RFC token strings of at most 32 characters.", "quantifier": "all strings", "why_tests_cant": "all inputs", "anchors": ["crates/sip-core/src/method.rs: Method::as_str, from_token"]}
{"id": "C27", "title": "RSeq and RAck headers round-trip", "statement": "Formatting an RSeq or RAck value and parsing it gives the value back, and parsing accepts only sequence numbers in 1..2^31-1.", "quantifier": "all values and strings", "why_tests_cant": "all inputs", "anchors": ["crates/sip-core/src/rseq.rs: RSeqHeader, RAckHeader"]}
{"id": "C28", "title": "A Via header round-trips", "statement": "Formatting any Via header constructed through the API and parsing it back gives an equal header (transport, sent-by, parameters).", "quantifier": "all Via values the API can construct", "why_tests_cant": "all inputs", "anchors": ["crates/sip-core/src/via.rs: ViaHeader::parse, Display"]}
{"id": "C29", "title": "Serialized messages parse back to the same message", "statement": "Parsing the bytes of a serialized request (response) returns the same start line, the same headers in order (canonical names, trimmed values, one recomputed Content-Length) and the same body.", "quantifier": "all requests and responses satisfying the API's own construction rules", "why_tests_cant": "all inputs", "anchors": ["crates/sip-parse/src/lib.rs: parse_request, parse_response, serialize_request, serialize_response"]}
{"id": "C30", "title": "The parsed body is exactly the declared Content-Length", "statement": "When a message parses, its body has exactly the length given by its Content-Length header; a message with fewer bytes, or with conflicting or malformed Content-Length values, is rejected.", "quantifier": "all byte strings", "why_tests_cant": "request smuggling needs a claim about all inputs", "anchors": ["crates/sip-parse/src/lib.rs: extract_body, parse_content_length_detailed"]}
{"id": "C31", "title": "Stream framing does not depend on how bytes are split into reads", "statement": "For any byte stream and any way of cutting it into reads, the sequence of messages extracted from a TCP/TLS connection is the same, as is whether and when a framing error is raised.", "quantifier": "all byte streams and all splits into reads", "why_tests_cant": "exponentially many splits of unboundedly many streams", "anchors": ["crates/sip-transport/src/lib.rs: drain_sip_frames, spawn_stream_session"]}
{"id": "C32", "title": "Stream framing loses and invents no bytes", "statement": "The bytes received equal the keep-alive CR/LF bytes skipped between messages, the extracted messages in order, and the unread remainder.", "quantifier": "all byte streams", "why_tests_cant": "all inputs", "anchors": ["crates/sip-transport/src/lib.rs: drain_sip_frames, consume_leading_crlf"]}
{"id": "C33", "title": "Every framed message carries its declared length and respects the limits", "statement": "Each extracted frame is a header block of at most 64 KiB ending in the first blank line, with a valid Content-Length (or compact l) header, followed by exactly that many (at most 10 MiB) body bytes; a message without Content-Length, with conflicting or non-numeric values, is never delivered and closes the connection.", "quantifier": "all byte streams", "why_tests_cant": "smuggling resistance is a claim about all inputs", "anchors": ["crates/sip-transport/src/lib.rs: drain_sip_frames, parse_content_length"]}
{"id": "C34", "title": "A well-formed pipeline of messages is delivered completely", "statement": "A concatenation of any number of messages, each with header block, correct Content-Length and body within limits, optionally separated by keep-alive CRLFs, is split into exactly those messages.", "quantifier": "all message lists", "why_tests_cant": "all inputs", "anchors": ["crates/sip-transport/src/lib.rs: drain_sip_frames"]}
{"id": "C35", "title": "Digest nonce counts prevent replay", "statement": "For any history, once a request with a given server nonce and nonce count nc has been accepted, no later request with a smaller nc, and no later different request with the same nc, is accepted for that nonce; nothing is accepted for a nonce the server did not issue or whose lifetime has passed.", "quantifier": "all histories of requests, times and nonces", "why_tests_cant": "replay resistance quantifies over all orders of messages and clock values", "anchors": ["crates/sip-auth/src/lib.rs: Nonce::validate_nc_with_request, NonceManager::verify_with_nc"]}
{"id": "C36", "title": "Digest verification accepts only with the right secret and the right request", "statement": "verify returns true only if the request carries Digest credentials for this realm, opaque, qop, algorithm and the request's own URI, an issued unexpired nonce, and a response equal to the RFC 7616 digest of that user's password, method, URI, nonce, nc, cnonce (and body for auth-int).", "quantifier": "all requests, credential stores and nonce tables", "why_tests_cant": "soundness over all inputs", "anchors": ["crates/sip-auth/src/lib.rs: DigestAuthenticator::prepare_digest, verify, compute_response"]}
{"id": "C37", "title": "A correct client is accepted", "statement": "Authorization produced by the digest client for a fresh challenge of the server, with the right password, is accepted by the server's verification, and stays accepted for successive requests as the client's nonce count increments.", "quantifier": "all users, passwords, methods, URIs and numbers of successive requests", "why_tests_cant": "completeness for all inputs and histories", "anchors": ["crates/sip-auth/src/lib.rs: DigestClient::generate_authorization, DigestAuthenticator::verify"]}
{"id": "C38", "title": "The nonce table is bounded", "statement": "With a configured maximum of at least 10 nonces, the number of stored nonces never exceeds the maximum.", "quantifier": "all histories", "why_tests_cant": "bound under every load", "anchors": ["crates/sip-auth/src/lib.rs: NonceManager::generate, remove_oldest"]}
{"id": "C39", "title": "Stale is signalled only for expired nonces the server issued", "statement": "A challenge is marked stale only when the presented nonce was issued by this server and has expired or exceeded its reuse window.", "quantifier": "all histories", "why_tests_cant": "all histories", "anchors": ["crates/sip-auth/src/lib.rs: NonceManager::is_stale, reuse_window_exceeded", "crates/sip-registrar/src/lib.rs: handle_register"]}
{"id": "C40", "title": "Bindings are never returned after they expire", "statement": "Looking up an address-of-record returns exactly the contacts whose latest registration has not yet expired, each with its true remaining lifetime.", "quantifier": "all histories of registrations, removals and clock advances", "why_tests_cant": "all histories", "anchors": ["crates/sip-registrar/src/lib.rs: MemoryLocationStore::upsert, lookup, remove, cleanup_expired"]}
{"id": "C41", "title": "A contact has at most one binding per AOR and counts are bounded", "statement": "Within an address-of-record every contact appears at most once, there are at most 20 contacts, and the store holds at most 100000 bindings.", "quantifier": "all histories", "why_tests_cant": "all histories", "anchors": ["crates/sip-registrar/src/lib.rs: MemoryLocationStore::upsert"]}
{"id": "C42", "title": "A user can only register their own AOR", "statement": "With authentication enabled a REGISTER changes bindings only of the address-of-record named by the authenticated user; any other REGISTER leaves the location store unchanged.", "quantifier": "all requests and stores", "why_tests_cant": "authorization must hold for all inputs", "anchors": ["crates/sip-registrar/src/lib.rs: handle_register, aor_identity, usernames_equal", "crates/sip-auth/src/lib.rs: extract_auth_username"]}
{"id": "C43", "title": "Replayed or reordered REGISTERs do not overwrite newer bindings", "statement": "A REGISTER whose Call-ID equals that of an existing binding and whose CSeq is not greater never changes that binding.", "quantifier": "all histories", "why_tests_cant": "all orders of messages", "anchors": ["crates/sip-registrar/src/lib.rs: handle_register"]}
{"id": "C44", "title": "REGISTER is all-or-nothing", "statement": "If a REGISTER is rejected the location store is unchanged (RFC 3261 10.3 step 7).", "quantifier": "all requests with any number of contacts", "why_tests_cant": "all inputs", "anchors": ["crates/sip-registrar/src/lib.rs: handle_register"]}
{"id": "C45", "title": "Unregister removes exactly what it names", "statement": "A successful REGISTER with expires 0 for a contact removes that contact only; Contact: * with Expires: 0 removes all bindings of that AOR and of no other.", "quantifier": "all stores and requests", "why_tests_cant": "all inputs", "anchors": ["crates/sip-registrar/src/lib.rs: handle_register, MemoryLocationStore::remove, remove_all"]}
{"id": "C46", "title": "Granted expirations respect policy", "statement": "Every binding stored by the registrar has an expiry between the configured minimum and maximum, contact parameter taking precedence over the Expires header over the default; shorter requests are refused with 423.", "quantifier": "all requests and configurations", "why_tests_cant": "all inputs", "anchors": ["crates/sip-registrar/src/lib.rs: parse_expires, Binding::new"]}
{"id": "C47", "title": "The rate limiter admits at most burst + elapsed/interval requests per key", "statement": "Over any time span starting at first use, the number of admitted requests for a key is at most burst capacity plus the number of whole refill intervals elapsed.", "quantifier": "all keys, configurations, arrival patterns and clock advances", "why_tests_cant": "all arrival patterns", "anchors": ["crates/sip-ratelimit/src/lib.rs: TokenBucket::refill, try_consume, RateLimiter::check_rate_limit"]}
{"id": "C48", "title": "Keys do not interfere", "statement": "Requests under one key never change whether a request under another key is admitted, while the key table is not full.", "quantifier": "all interleavings of keys", "why_tests_cant": "all interleavings", "anchors": ["crates/sip-ratelimit/src/lib.rs: RateLimiter::check_rate_limit"]}
{"id": "C49", "title": "The rate-limiter table is bounded", "statement": "The limiter never tracks more than 100000 keys and never stores a key longer than 256 bytes or containing control characters.", "quantifier": "all histories", "why_tests_cant": "bound under every load", "anchors": ["crates/sip-ratelimit/src/lib.rs: RateLimiter::check_rate_limit, validate_key"]}
{"id": "C50", "title": "The best response chosen by a forking proxy follows RFC 3261 16.7", "statement": "Among the final responses received, the one kept is a 6xx if any, otherwise a 2xx if any, otherwise the first received of the lowest class, independent of arrival order of the classes.", "quantifier": "all sequences of final responses", "why_tests_cant": "all orders", "anchors": ["crates/sip-proxy/src/stateful.rs: ProxyContext::select_best_response, process_response"]}
{"id": "C51", "title": "A forking proxy forwards a 2xx immediately and cancels every other pending branch", "statement": "On a 2xx the proxy forwards that response and marks every other branch that has not completed as cancelled, and a CANCEL is produced for each.", "quantifier": "all numbers of branches and histories", "why_tests_cant": "all histories", "anchors": ["crates/sip-proxy/src/stateful.rs: process_response, cancel_other_branches, build_cancel_requests"]}
{"id": "C52", "title": "A forking proxy forwards exactly one non-2xx final response, only when every branch has answered", "statement": "No non-2xx (other than 6xx) final response is forwarded while some branch has not produced a final response, and at most one is forwarded per context.", "quantifier": "all histories", "why_tests_cant": "all histories", "anchors": ["crates/sip-proxy/src/stateful.rs: process_response"]}
{"id": "C53", "title": "A proxied response returns along the request's path", "statement": "Removing the top Via of a response undoes exactly the Via added when forwarding the request; all other headers keep their order.", "quantifier": "all header lists", "why_tests_cant": "all inputs", "anchors": ["crates/sip-proxy/src/lib.rs: add_via, remove_top_via"]}
{"id": "C54", "title": "Loops are detected", "statement": "A request that comes back to the same proxy unchanged in Request-URI, To, From, Call-ID and CSeq carries a branch that the proxy recognises as its own and is rejected, whatever other proxies inserted.", "quantifier": "all paths of any length through other elements", "why_tests_cant": "all paths", "anchors": ["crates/sip-proxy/src/lib.rs: compute_loop_branch, detect_loop_hashed, add_via_with_loop_detection"]}
{"id": "C55", "title": "Fork size and context table are bounded", "statement": "A proxy context never holds more than 50 branches; once a 6xx has terminated it no further branch can be added.", "quantifier": "all histories", "why_tests_cant": "all histories", "anchors": ["crates/sip-proxy/src/stateful.rs: ProxyContext::add_branch"]}
{"id": "C56", "title": "CANCEL and ACK are matched to the right INVITE", "statement": "A CANCEL matches an INVITE iff CSeq number, Call-ID, From tag and Request-URI all agree.", "quantifier": "all message pairs", "why_tests_cant": "all inputs", "anchors": ["crates/sip-proxy/src/cancel_ack.rs: CancelForwarder::matches_invite"]}
{"id": "C57", "title": "SRV targets are tried in priority order and none is lost", "statement": "The SRV target list is a permutation of the usable records, ordered by ascending priority, whatever the random choices; within a priority zero-weight records come after all positive-weight ones.", "quantifier": "all record sets and all random choices", "why_tests_cant": "all random outcomes", "anchors": ["crates/sip-dns/src/lib.rs: lookup_srv, select_by_weight"]}
{"id": "C58", "title": "A SIPS URI is never resolved to an insecure transport", "statement": "Every target produced for a sips URI uses TLS, for any DNS contents (NAPTR, SRV, A/AAAA) and any transport parameter.", "quantifier": "all DNS answers and URIs", "why_tests_cant": "DNS content is adversarial", "anchors": ["crates/sip-dns/src/lib.rs: resolve_internal, lookup_naptr, default_transport"]}
{"id": "C59", "title": "TLS certificates are checked against the host the user named", "statement": "For every target produced for a URI with a host name, the TLS reference identity is that host name.", "quantifier": "all DNS answers", "why_tests_cant": "DNS content is adversarial", "anchors": ["crates/sip-dns/src/lib.rs: DnsTarget::sni, resolve_internal, lookup_srv"]}
{"id": "C60", "title": "ENUM domains encode the number faithfully", "statement": "The ENUM domain of an E.164 number determines the number; different numbers never share a domain and the domain is the reversed digit sequence under e164.arpa.", "quantifier": "all numbers", "why_tests_cant": "all inputs", "anchors": ["crates/sip-dns/src/enum_lookup.rs: enum_to_domain"]}
{"id": "C61", "title": "DHCP option 120 decoding inverts the RFC 3361 encoding", "statement": "Decoding the encoding of any list of valid domain names or IPv4 addresses returns that list; truncated or oversized labels are rejected.", "quantifier": "all byte strings and server lists", "why_tests_cant": "all inputs", "anchors": ["crates/sip-dns/src/lib.rs: parse_dhcp_option_120"]}
{"id": "C62", "title": "An SDP answer mirrors the offer's media lines", "statement": "A generated answer has the same number of media descriptions as the offer, in the same order with the same media type and transport protocol, and every format accepted was offered.", "quantifier": "all offers and capabilities", "why_tests_cant": "all inputs", "anchors": ["crates/sip-sdp/src/negotiate.rs: negotiate_answer, negotiate_media, find_common_formats"]}
{"id": "C63", "title": "At most one stream per media type is accepted", "statement": "An answer accepts (non-zero local port) at most one media description per media type: the first acceptable one.", "quantifier": "all offers and capabilities", "why_tests_cant": "all inputs", "anchors": ["crates/sip-sdp/src/negotiate.rs: negotiate_answer"]}
{"id": "C64", "title": "The answered direction is what both sides can do", "statement": "The direction in the answer never lets the answerer send what the offerer does not receive or what local policy forbids, and negotiation succeeds whenever RFC 3264 allows an answer.", "quantifier": "all pairs of directions", "why_tests_cant": "finite but unit tests cover two pairs; the composition with the negotiation quantifies over all offers", "anchors": ["crates/sip-sdp/src/negotiate.rs: Direction::reverse, negotiate, negotiate_media"]}
{"id": "C65", "title": "The limiter's counters add up", "statement": "The allowed and blocked counters equal the number of requests that were admitted and refused.", "quantifier": "all histories", "why_tests_cant": "every path through the call must count exactly once", "anchors": ["crates/sip-ratelimit/src/lib.rs: RateLimitMetrics, RateLimiter::check_rate_limit"]}
{"id": "C66", "title": "Mutual authentication closes the loop", "statement": "Authentication-Info written by the server is read back unchanged by the client; the client accepts it exactly when it is the RFC 7616 response digest of what the client knows; what the server builds for a verified request is accepted by the client that holds the same password.", "quantifier": "all field values without quotes, backslashes and control characters, all requests, users, bodies", "why_tests_cant": "a round trip and a decision over all strings", "anchors": ["crates/sip-auth/src/lib.rs: AuthInfo, build_auth_info, verify_auth_info"]}
{"id": "C67", "title": "A challenge cannot crash the user agent", "statement": "Answering a 401 or 407 with any header text never panics: the user agent either produces an authenticated request or returns an error.", "quantifier": "all challenge texts, all requests", "why_tests_cant": "the panic needs one particular text out of all possible ones", "anchors": ["crates/sip-uac/src/lib.rs: create_authenticated_request, parse_www_authenticate"]}
{"id": "C68", "title": "An authenticated retry is the same request", "statement": "The request built to answer a 401 or 407 has the method, URI, body and headers of the original except: the CSeq number is one higher, the Via branch is new, and the credentials are added.", "quantifier": "all requests and challenges", "why_tests_cant": "every header of every request must be carried over; a test compares a few", "anchors": ["crates/sip-uac/src/lib.rs: create_authenticated_request"]}
{"id": "C69", "title": "Rebuilding a URI keeps its meaning", "statement": "A SIP URI that was parsed and then modified through the builder methods has a text form that parses back to exactly the same components.", "quantifier": "all URI texts, all sequences of modifications", "why_tests_cant": "a round trip over all strings", "anchors": ["crates/sip-core/src/uri.rs: SipUri::parse, with_host, with_user, with_port, with_param, without_port, without_uri_headers, build_raw_sip_uri"]}
{"id": "C70", "title": "Address-of-record keys neither merge nor split users", "statement": "Two SIP URIs that differ only in parameters, headers or host case have the same registrar key; two URIs with different scheme, user, host or port have different keys.", "quantifier": "all pairs of URIs", "why_tests_cant": "injectivity over all pairs of inputs", "anchors": ["crates/sip-registrar/src/lib.rs: normalize_aor, normalize_sip_aor, normalize_tel_aor"]}
{"id": "C71", "title": "The 200 to a REGISTER lists the current bindings", "statement": "The Contact values of a 200 to a REGISTER are exactly the bindings the address-of-record has after it, each with its remaining lifetime.", "quantifier": "all registrar states and requests", "why_tests_cant": "must hold for every mix of added, refreshed and removed contacts", "anchors": ["crates/sip-registrar/src/lib.rs: BasicRegistrar::handle_register, format_contact"]}
{"id": "C72", "title": "Forwarding changes exactly what it says", "statement": "A request prepared for forwarding is the received one with the new Request-URI, Max-Forwards lowered, the proxy's Via in front and, if asked, one Record-Route; every other header, the method and the body are unchanged.", "quantifier": "all requests and targets", "why_tests_cant": "every header of every request must be carried over", "anchors": ["crates/sip-proxy/src/stateful.rs: prepare_forward", "crates/sip-proxy/src/lib.rs: add_via, add_record_route, check_max_forwards"]}
{"id": "C73", "title": "A caller sees the challenges of every branch", "statement": "When a fork ends with 401 or 407, the response forwarded carries the WWW-Authenticate and Proxy-Authenticate values of all branches that answered 401 or 407, each once.", "quantifier": "all numbers of branches and responses", "why_tests_cant": "the combination must be complete for every set of answers", "anchors": ["crates/sip-proxy/src/stateful.rs: aggregate_auth_challenges, process_response"]}
{"id": "C74", "title": "A peer's header text cannot crash dialog matching", "statement": "Looking up the dialog of a message, and creating one from it, never panics, whatever text the From and To headers contain.", "quantifier": "all header texts", "why_tests_cant": "the panic needs a multi-byte character at one particular offset", "anchors": ["crates/sip-dialog/src/lib.rs: extract_tag, DialogId::from_request, DialogManager::find_by_request"]}
{"id": "C77", "title": "The route set follows Record-Route", "statement": "The caller's route set is the list of Record-Route URIs of the response in reverse order, the callee's the list of the request in order, so the two ends hold the same proxies in opposite orders.", "quantifier": "all messages with any number of Record-Route headers and comma-separated entries, with or without display names", "why_tests_cant": "lists of any length and any quoting", "anchors": ["crates/sip-dialog/src/lib.rs: build_route_set, split_header_values, Dialog::new_uac, Dialog::new_uas, update_from_response"]}
{"id": "C78", "title": "Requests in a dialog are routed as RFC 3261 12.2.1.1 says", "statement": "A request sent in a dialog keeps its method, body and other headers, has exactly one CSeq with the next number, and its Request-URI, Route headers and next hop are those of the dialog's route set and remote target, for loose and strict routers; the dialog's number advances by one.", "quantifier": "all dialogs and requests", "why_tests_cant": "every route set, every header list", "anchors": ["crates/sip-uac/src/integrated.rs: prepare_in_dialog_request, apply_route_set_to_request"]}
{"id": "C79", "title": "The ACK for a 2xx belongs to its INVITE", "statement": "The ACK carries From, Call-ID and CSeq number of the INVITE and the To of the response, and the callee that accepted the INVITE accepts the ACK.", "quantifier": "all INVITEs and responses", "why_tests_cant": "every spelling of the CSeq header", "anchors": ["crates/sip-uac/src/lib.rs: create_ack", "crates/sip-dialog/src/lib.rs: update_from_request"]}
{"id": "C80", "title": "A request built in a dialog is recognised by the peer", "statement": "Every request a builder makes for a dialog names that dialog, carries its body with the right Content-Length, is found by the peer's dialog manager as its own dialog, and is accepted; building it does not panic.", "quantifier": "all dialogs, request kinds, tags, display names and histories of the peer's manager", "why_tests_cant": "a round trip between two programs over all texts", "anchors": ["crates/sip-uac/src/lib.rs: create_bye, create_reinvite, create_update, create_info, build_prack_request, create_refer", "crates/sip-dialog/src/lib.rs: DialogManager::find_by_request, update_from_request"]}
{"id": "C81", "title": "Requests on one dialog never share a CSeq", "statement": "However session refreshes sent by the timer, requests sent by the application and requests received from the peer interleave on one dialog, no two requests go out with the same CSeq number, and nothing one of them did to the dialog is undone by another.", "quantifier": "all schedules of refreshes, application requests, peer requests and terminations", "why_tests_cant": "the collision needs a particular interleaving of two tasks", "anchors": ["crates/sip-uac/src/integrated.rs: run_session_timer, commit_advanced_dialog, bye"]}
{"id": "C82", "title": "A session is refreshed in time and the timer stops exactly when it must", "statement": "Refreshes fall due within the first half of the session interval and then at most half an interval apart; the refresh loop goes on until the dialog is gone or the configured number of refreshes in a row have failed; every refresh is reported and the stop is the last report.", "quantifier": "all session intervals, all sequences of refresh outcomes", "why_tests_cant": "the loop runs for the whole life of a call", "anchors": ["crates/sip-uac/src/integrated.rs: run_session_timer, session_refresh_period"]}
{"id": "C83", "title": "A reliable response is retransmitted until acknowledged and no longer", "statement": "A reliable provisional response is sent again at doubling intervals starting at T1 until a PRACK acknowledges it, at most until 64 times T1 have passed, and never after it has been acknowledged.", "quantifier": "all times at which the PRACK arrives, all histories of the validator in between", "why_tests_cant": "the time of the acknowledgement is arbitrary, and other calls change the same table meanwhile", "anchors": ["bins/siphond/src/handlers/invite.rs: schedule_reliable_retransmit", "crates/sip-uas/src/prack_validator.rs: is_pracked"]}
{"id": "C84", "title": "The answer to a PRACK", "statement": "A PRACK is answered 200 exactly if it acknowledges an outstanding reliable response of its dialog, 481 if it matches none and 400 if it cannot be read; a PRACK that is not answered 200 changes nothing.", "quantifier": "all validator states and all requests", "why_tests_cant": "every state and every header text", "anchors": ["crates/sip-uas/src/lib.rs: handle_prack, dialog_id_key, validate_dialog_request", "crates/sip-uas/src/prack_validator.rs: validate_prack"]}
{"id": "C88", "title": "A response tells the client where its request came from", "statement": "In every response the topmost Via carries the source port in rport if the client asked for it with a bare rport, and the source address in received if it differs from the host of the sent-by or rport was asked for; the rest of the response is unchanged.", "quantifier": "all Via texts, header lists, source addresses and ports", "why_tests_cant": "every spelling of a Via and every combination of parameters", "anchors": ["crates/sip-uas/src/integrated.rs: apply_rport, auto_fill_headers", "crates/sip-core/src/via.rs: ViaHeader"]}
{"id": "C85", "title": "Every response belongs to its request", "statement": "Whatever answer is built, the response has all Via and Record-Route headers of the request in order, its From, Call-ID and CSeq, the given status, body and the right Content-Length, a To with exactly one tag (the request's, or else the server's), and no headers beyond those its kind of answer calls for.", "quantifier": "all requests, all kinds of answer", "why_tests_cant": "every header list and every spelling of the To header", "anchors": ["crates/sip-uas/src/lib.rs: create_response, create_ok, ensure_to_tag_header, create_request_terminated_from_cancel, accept_options, accept_refer, create_reliable_provisional"]}
{"id": "C86", "title": "Answering a request never crashes the server", "statement": "Building any answer to any request that the parser accepts, and dispatching it, does not panic.", "quantifier": "all stored requests, all answers, all server states", "why_tests_cant": "the crash needs a particular number of headers, length of a value or character at one offset", "anchors": ["crates/sip-uas/src/lib.rs: create_response, create_reliable_provisional, create_ok", "crates/sip-uas/src/integrated.rs: dispatch, auto_fill_headers"]}
{"id": "C87", "title": "One call, one dialog", "statement": "The dialog opened when an INVITE is accepted has the identifiers the answer carries, and requests of the call are found to belong to it; every response to one INVITE that creates a dialog carries the same To tag.", "quantifier": "all INVITEs, server states and tags", "why_tests_cant": "relates two messages and a table over all of their values", "anchors": ["crates/sip-uas/src/lib.rs: accept_invite, accept_invite_with_session_timer, create_reliable_provisional, replace_to_tag", "bins/siphond/src/handlers/invite.rs"]}
{"id": "C89", "title": "Requests reach the right handler, or get the right refusal", "statement": "BYE, REFER, UPDATE, PRACK and INFO reach the application exactly if the server has their dialog, together with it, and are answered 481 otherwise; ACK is never answered; an INVITE without the required headers is answered 400; unknown methods 501; nothing reaches the application unauthenticated when authentication is required; every request gets at most one final answer from the dispatcher, and none when the application answers; a CANCEL ends exactly the INVITE with its branch.", "quantifier": "all requests, server states and configurations", "why_tests_cant": "a decision over all methods, header lists and dialog tables", "anchors": ["crates/sip-uas/src/integrated.rs: IntegratedUAS::dispatch, auto_fill_headers, build_contact_value"]}
{"id": "C90", "title": "A new dialog records exactly what the messages say", "statement": "A dialog is made from a request and a response exactly if both carry the identifiers, the response is 1xx or 2xx, the Contact of the peer can be read and the sizes are within the limits; it then holds their Call-ID and tags, the route set, the remote target, the sequence numbers and the session timer of those messages and nothing else.", "quantifier": "all requests and responses, for the calling and the called side", "why_tests_cant": "every combination of headers, each with any text", "anchors": ["crates/sip-dialog/src/lib.rs: Dialog::new_uac, Dialog::new_uas, DialogId::new, build_route_set, split_header_values, parse_uri_from_header"]}
{"id": "C91", "title": "Messages change a dialog only as they must", "statement": "An accepted request changes the remote target and the peer's sequence number and nothing else; a response changes the remote target, the session timer and, when it confirms the dialog, the state and the route set, and nothing else; an interval set by hand is kept within 90 to 86400 seconds.", "quantifier": "all dialogs and messages", "why_tests_cant": "every field in every state", "anchors": ["crates/sip-dialog/src/lib.rs: Dialog::update_from_request, Dialog::update_from_response, Dialog::set_session_expires, Dialog::needs_refresh"]}
{"id": "C92", "title": "A datagram is read as a message exactly if it is one", "statement": "A request or response is read from a datagram exactly if its start line, header lines, limits, singleton headers, topmost branch, CSeq and body are as the grammar allows, and what is read is exactly what the datagram says: every header in order with its long name and stripped value, and the body.", "quantifier": "all byte strings and size limits, for requests and responses, strict and default parsers", "why_tests_cant": "both directions range over all byte strings", "anchors": ["crates/sip-parse/src/lib.rs: parse_request_with_limit, parse_request_with_limit_strict, parse_response, parse_response_strict, parse_headers, split_head_body, extract_body"]}
{"id": "C93", "title": "Messages sent over a stream arrive", "statement": "Messages that are written one after the other to a TCP or TLS stream, however the stream is cut into reads, are handed on one by one and whole, and reading them gives the same messages of the same kinds in order, in their normal form.", "quantifier": "all lists of requests and responses, all ways to cut the stream", "why_tests_cant": "three components together, over all messages and all cuts", "anchors": ["crates/sip-parse/src/lib.rs: serialize_request, serialize_response, parse_request, parse_response", "crates/sip-transport/src/lib.rs: drain_sip_frames"]}
{"id": "C75", "title": "The dialog store holds exactly what was put into it", "statement": "After any history of puts and removals, getting an identifier gives the dialog last stored under it unless it was removed, listing a Call-ID gives exactly the stored dialogs of that call, each once, and there are never more than 100 000 dialogs; this also holds when several threads use the store at once.", "quantifier": "all histories of calls, all interleavings of concurrent calls", "why_tests_cant": "two maps have to stay consistent over every history and every interleaving", "anchors": ["crates/sip-dialog/src/storage.rs: InMemoryDialogStore"]}
{"id": "C76", "title": "Session timer events come on time, once, and only while the timer runs", "statement": "A timer that is started reports the refresh at half the interval if this side refreshes and the expiry at the whole interval, each once and at that time; a timer that was stopped or replaced reports nothing; a started timer exists and tells the remaining time until it expires, stops or is replaced, whatever other dialogs do meanwhile.", "quantifier": "all sequences of calls for all dialogs, all interleavings of the tasks, all intervals", "why_tests_cant": "events depend on the interleaving of the tasks, the callers and time", "anchors": ["crates/sip-dialog/src/session_timer_manager.rs: SessionTimerManager, start_timer, stop_timer, refresh_timer, has_timer, time_remaining"]}
{"id": "C94", "title": "A SIP URI is resolved as the DNS says", "statement": "For any contents of the DNS, the list of targets is exactly one that the rules allow: a numeric host is the target itself; an explicit port means the addresses of the host; otherwise the services in the order of the NAPTR records (or of the fallback order), each with its SRV records in order, and without any SRV record the addresses of the host with the default port; a list of more than a hundred targets is an error.", "quantifier": "all URIs, all DNS contents, all random choices", "why_tests_cant": "the rules combine four kinds of answers and random choices", "anchors": ["crates/sip-dns/src/lib.rs: SipResolver::resolve_internal, lookup_naptr, lookup_srv, select_by_weight, lookup_ip, happy_eyeballs_interleave"]}
{"id": "C95", "title": "Servers announced by DHCP are used in order, and the DNS otherwise", "statement": "The DHCP resolver gives the targets of the announced servers in their order: an address with the default port and transport, a name as the resolver behind answers for it. The hybrid resolver gives the same if there is any, and otherwise what the resolver behind says for the URI itself.", "quantifier": "all announcements, resolvers and URIs", "why_tests_cant": "every combination of announcements and answers of the resolver behind", "anchors": ["crates/sip-dns/src/lib.rs: DhcpResolver, HybridResolver, parse_dhcp_option_120"]}
{"id": "C96", "title": "A text is read as a session description exactly if it is one", "statement": "A text is read as a session description exactly if it is within the limits, consists of lines of the fifteen kinds, and these lines name a version 0, an origin, a name, at least one time, well-formed repetitions, zones and streams; what is read is what the lines say, section by section, the last line counting where only one value is kept.", "quantifier": "all texts", "why_tests_cant": "both directions range over all texts", "anchors": ["crates/sip-sdp/src/parse.rs: parse_sdp, parse_sdp_lines, build_session_description, validate_media_formats"]}
{"id": "C97", "title": "A written description is read back", "statement": "A session description within the limits is read back with the same contents exactly if its fields can be written: no line ends or surrounding space where the format has no place for them; whatever was read can be written, and reading, writing and reading again gives the same session.", "quantifier": "all session descriptions", "why_tests_cant": "a round trip over all field values", "anchors": ["crates/sip-sdp/src/serialize.rs: serialize_sdp", "crates/sip-sdp/src/parse.rs: parse_sdp"]}
{"id": "C98", "title": "siphond answers every readable offer, stream by stream", "statement": "Answering an offer from a media profile never panics; the answer has one stream for each stream of the offer, in its order and of its kind, refused with port zero where it is not supported, with codecs that were offered and a direction that fits; with the configured names, address and ports.", "quantifier": "all offers that can be read, all profiles, names and ports", "why_tests_cant": "every list of streams, formats and maps", "anchors": ["crates/sip-sdp/src/profiles.rs: negotiate_answer, MediaProfileBuilder", "bins/siphond/src/sdp_utils.rs: generate_sdp_answer"]}
{"id": "C99", "title": "A connection pool never exceeds its size and always makes room", "statement": "At every time the number of pooled connections and of calls that are opening one is at most the size of the pool, and no slot is ever lost; an entry is evicted only when it is idle or among the least recently used, a cleanup removes exactly the idle ones; a call for a new peer gets a slot whenever something may be evicted.", "quantifier": "all histories and interleavings of sends, failed connects, broken connections, cleanups and evictions, all sizes", "why_tests_cant": "the count of permits depends on the interleaving of calls, supervisors and cleanups", "anchors": ["crates/sip-transport/src/pool.rs: ConnectionPool::send_tcp, send_ws, reserve_slot, cleanup_idle, evict_lru, TlsPool::send_tls, PoolEntry"]}
{"id": "C100", "title": "A message sent over a pooled connection arrives, in order, at the peer it was meant for", "statement": "A send that returned Ok has put its message into the channel of exactly one connection, to the peer it was addressed to; messages of one connection go out in the order of the sends, each once; as long as the connection is not broken, idle or evicted they all go out; and one slow peer does not stop sends to others.", "quantifier": "all interleavings of any number of sends, writers, supervisors and cleanups", "why_tests_cant": "losses need a particular interleaving of two sends and a supervisor", "anchors": ["crates/sip-transport/src/pool.rs: send_tcp, send_ws, send_tls, spawn_writer, spawn_writer_supervisor, PoolEntry::drop"]}
{"id": "C101", "title": "The end of every pooled connection is reported once, as what it was", "statement": "A connection that ends is reported at most once, and every one that ended is reported; a failure of the connection is told apart from an orderly end.", "quantifier": "all histories and interleavings", "why_tests_cant": "the report is made by another task than the one that ends the connection", "anchors": ["crates/sip-transport/src/pool.rs: ConnectionEvent, spawn_writer_supervisor"]}
{"id": "C102", "title": "The subscription manager holds exactly what was put into it", "statement": "After any history of insertions, removals and cleanups, looking up an identifier gives the subscription last inserted under it unless it was removed or had terminated at a cleanup; listing all, or those of an event, gives exactly these, each once; there are never more than 10 000; a cleanup removes only terminated subscriptions, whatever other threads do meanwhile.", "quantifier": "all histories of calls, all interleavings of the threads", "why_tests_cant": "the table must be right after every history, and cleanup works in two steps between which anything may happen", "anchors": ["crates/sip-dialog/src/lib.rs: SubscriptionManager::insert, get, remove, get_by_event, all_subscriptions, cleanup_terminated"]}
{"id": "C103", "title": "A subscription is what the SUBSCRIBE and its answer say", "statement": "A subscription made from a SUBSCRIBE and the answer has their Call-ID, tags, event, Contact, sequence number and the granted time, the same identifier at both ends; the answer announces the time that is granted; a refresh continues the same subscription; an expiry of 0 ends it; a refused SUBSCRIBE changes nothing.", "quantifier": "all SUBSCRIBE requests and answers, for notifier, subscriber and the daemon", "why_tests_cant": "every header text at both ends", "anchors": ["crates/sip-dialog/src/lib.rs: Subscription::new_notifier, new_subscriber, SubscriptionId::from_request_response", "crates/sip-uas/src/lib.rs: accept_subscribe", "crates/sip-uac/src/lib.rs: process_subscribe_response", "bins/siphond/src/handlers/subscribe.rs"]}
{"id": "C104", "title": "A NOTIFY is recognised by the subscriber it is for", "statement": "Every NOTIFY goes to the subscriber's Contact, carries the identifiers and event of its subscription from notifier to subscriber, says the state the subscription is in, has one Content-Type and the length of its body, and a number one higher than the request before; a daemon that holds the subscription answers 200 and any other 481.", "quantifier": "all subscriptions, states, bodies, tables", "why_tests_cant": "a round trip between two programs over all texts", "anchors": ["crates/sip-uac/src/lib.rs: create_notify", "crates/sip-uas/src/lib.rs: create_notify_sipfrag", "bins/siphond/src/handlers/notify.rs", "bins/siphond/src/handlers/subscribe.rs: send_initial_notify"]}
{"id": "C105", "title": "The sender of a REFER learns what became of the call", "statement": "A REFER in a dialog is accepted with 202, opens a subscription under the identifiers of the dialog, and the daemon reports in NOTIFYs, one for each, first 100 Trying and then every response of the new call in order, until one final status ends the reports; a REFER without Refer-To is answered 400, one outside a dialog 481, and neither opens a subscription.", "quantifier": "all REFER requests, dialog tables, and all histories of responses, retransmissions, timers and transport errors of the new call", "why_tests_cant": "the reports follow a state machine driven by an arbitrary history of events", "anchors": ["bins/siphond/src/handlers/refer.rs: ReferHandler::handle, TransferTransactionUser, send_sipfrag_notify", "crates/sip-uas/src/lib.rs: accept_refer, create_notify_sipfrag"]}
{"id": "C106", "title": "A REFER cannot make the daemon call a forbidden address", "statement": "Unless private targets are allowed the daemon never calls a loopback, private, link-local, shared, benchmark, documentation, multicast, broadcast or unspecified address because of a REFER; it calls exactly the host and port of the Refer-To URI, with that URI without its headers, and reports 400, 403 or 488 when it does not.", "quantifier": "all Refer-To values, all addresses, all configurations", "why_tests_cant": "every IPv4 and IPv6 address and every text of a URI", "anchors": ["bins/siphond/src/handlers/refer.rs: is_global_addr, resolve_refer_target, ReferHandler::initiate_transfer"]}
{"id": "C107", "title": "An attended transfer replaces the call it names", "statement": "The INVITE made for a REFER carries a Replaces header exactly if the Refer-To URI has one, with its unescaped value; the Refer-To written for a dialog by the transferring client leads to an INVITE whose Replaces names that dialog.", "quantifier": "all Refer-To values, all dialogs and targets", "why_tests_cant": "a round trip through two programs and a percent encoding over all texts", "anchors": ["bins/siphond/src/handlers/refer.rs: extract_replaces_from_refer_to, percent_decode", "crates/sip-uac/src/lib.rs: create_refer_with_replaces"]}
{"id": "C108", "title": "A signed identity token says what was asked for", "statement": "A token made by the signing function for an address, an attestation level, a calling number, called numbers, a time and an origination id decodes to exactly these; its signed text is the JSON form without white space and with sorted names; the Identity header made for it is read back with the token and the address.", "quantifier": "all parameters, all signers", "why_tests_cant": "a round trip through JSON, base64url and the header syntax over all texts", "anchors": ["crates/sip-identity/src/sign.rs: PassportParams::sign, identity_header_value", "crates/sip-identity/src/passport.rs: Passport::decode", "crates/sip-identity/src/header.rs: IdentityHeader::parse"]}
{"id": "C109", "title": "An identity token is read as what it says", "statement": "A token is accepted exactly if it is three base64url pieces, the first two JSON texts with the fields of a header and of claims, and is read as these say; an Identity header is accepted exactly if it is a token with parameters and has at most 8192 bytes.", "quantifier": "all texts", "why_tests_cant": "acceptance and meaning over all byte strings: JSON with escapes and numbers, base64 tails, UTF-8", "anchors": ["crates/sip-identity/src/passport.rs: Passport::decode", "crates/sip-identity/src/header.rs: IdentityHeader::parse"]}
{"id": "C110", "title": "A verified identity is one that was signed", "statement": "Verification accepts exactly the algorithm ES256 with a key in its form and a signature the cryptography accepts for the bytes of the token; these bytes determine header and claims, so if only tokens for some parameters were signed under a key, every verified token says what these parameters say; with a chain the leaf must chain to an anchor at the time and the signature is handed on as the DER form of its two numbers.", "quantifier": "all tokens, keys, certificate chains and cryptographic oracles", "why_tests_cant": "binding over all texts and all 64-byte signatures; forged or re-encoded tokens", "anchors": ["crates/sip-identity/src/verify.rs: Passport::verify_signature", "crates/sip-identity/src/chain.rs: verify_with_chain, jose_es256_to_der, der_unsigned_integer"]}
{"id": "C111", "title": "A wish for privacy is read as what it says", "statement": "A Privacy header is accepted exactly if it has one to ten of the known words between semicolons, none only alone, and at most 256 bytes; a written header is read back; privacy counts as asked for exactly if the first Privacy header of a message asks for something.", "quantifier": "all texts and header collections", "why_tests_cant": "acceptance ranges over all texts", "anchors": ["crates/sip-core/src/privacy.rs: PrivacyHeader::parse, PrivacyHeader::new, Display, requires_privacy_enforcement"]}
{"id": "C112", "title": "A user who asks for privacy cannot be seen", "statement": "After privacy was enforced the message has the headers that are not hidden, as they were, and for a hidden identity one From and one Contact that name nobody and keep their parameters; two messages that differ only in what is to be hidden are the same afterwards; the request still belongs to its dialog; enforcement fails only for an overlong From or Contact.", "quantifier": "all header collections and all values", "why_tests_cant": "non-interference relates two runs on all messages; the place where parameters begin depends on quotes and brackets in arbitrary text", "anchors": ["crates/sip-core/src/privacy.rs: enforce_privacy, anonymize_identity_headers, remove_sensitive_headers, split_header_params"]}
{"id": "C113", "title": "A caller gets the callee's answers, in order, and one final one", "statement": "In back-to-back mode the caller of a call gets 100 and then, for each response of the callee up to the first final one, one response with the callee's status and body in the caller's own transaction and dialog, in the order they came; whatever happens, no transaction is answered twice finally.", "quantifier": "all histories of requests, responses, relay turns, CANCEL steps and clean-ups, over all calls at once", "why_tests_cant": "interleavings of the calls and of the relay tasks", "anchors": ["bins/siphond/src/handlers/invite.rs: handle_b2bua, transform_response_for_caller", "bins/siphond/src/b2bua_state.rs: B2BUAStateManager", "bins/siphond/src/main.rs: response bridging"]}
{"id": "C114", "title": "A call in back-to-back mode reaches the callee as it was meant", "statement": "An INVITE for a registered user goes to exactly one registered contact of that user, from the caller's address and with the caller's body, as a new call; the caller gets 100 at once; an INVITE for a user who is not registered is answered 404 and nobody is called; a call cannot go round for ever.", "quantifier": "all INVITEs, registrations and identifiers", "why_tests_cant": "every request text, every location table and every history before it", "anchors": ["bins/siphond/src/handlers/invite.rs: handle_b2bua", "crates/sip-uac/src/lib.rs: create_invite"]}
{"id": "C115", "title": "A call in back-to-back mode is acknowledged and ended for both parties", "statement": "The caller's ACK of an accepted call goes to the callee once, with the identifiers of the callee's call; a BYE of either party is answered 200 and goes to the other party once, with the identifiers that party knows and the next number, and the call is then gone; a BYE of a call that is not known is answered 481 and a stray ACK goes nowhere.", "quantifier": "all histories before it, all requests, both parties", "why_tests_cant": "identifiers of two calls must be kept apart in every history", "anchors": ["bins/siphond/src/handlers/bye.rs: handle_b2bua_bye", "bins/siphond/src/main.rs: create_b2bua_ack, ACK bridging, cleanup_old", "bins/siphond/src/b2bua_state.rs: CallLegPair"]}
{"id": "C116", "title": "A caller who gives up is answered, and the callee stops ringing", "statement": "A CANCEL of a ringing call in back-to-back mode is answered 200, the callee gets one CANCEL that belongs to the INVITE it was sent, the caller's INVITE is answered 487, and the call is gone; a CANCEL of no call is answered 481 and changes nothing.", "quantifier": "all histories before it, all orders of the parts of the handling and of the relay task", "why_tests_cant": "the handling waits for the network in its middle, and the relay task runs at any time", "anchors": ["bins/siphond/src/handlers/cancel.rs: CancelHandler::handle, forward_cancel_to_callee, create_487_from_request", "bins/siphond/src/handlers/invite.rs: handle_b2bua"]}
{"id": "C117", "title": "A change of a call in back-to-back mode reaches the other party", "statement": "An INVITE within an accepted call, from either party, goes to the other party as an INVITE within that party's dialog, with the same body and a growing number, and its sender gets the other party's answer; it is acknowledged; and the dialogs of a call are gone after the call.", "quantifier": "all histories before it, all requests, both parties", "why_tests_cant": "two dialogs must be kept in step in every history", "anchors": ["bins/siphond/src/handlers/invite.rs: handle_b2bua_reinvite, handle_b2bua", "crates/sip-dialog/src/lib.rs: DialogManager::find_by_request, insert", "crates/sip-uac/src/lib.rs: create_reinvite"]}
{"id": "C118", "title": "A call to the daemon is answered", "statement": "A new INVITE to a daemon that accepts calls gets 100, then 180, then 200 with the answer to its offer (or an offer), all with the headers of the INVITE and one To tag, and the dialog the 200 opens is stored with the data of the call and runs the session interval agreed; one that cannot be accepted gets exactly one final refusal and leaves nothing behind.", "quantifier": "all configurations, INVITEs, SDP outcomes and histories, with anything happening between the stages", "why_tests_cant": "the handler waits twice in its middle and any other request, timer or clean-up can run there", "anchors": ["bins/siphond/src/handlers/invite.rs: InviteHandler::handle", "bins/siphond/src/dispatcher.rs: RequestDispatcher::dispatch", "crates/sip-uas/src/lib.rs: UserAgentServer::accept_invite"]}
{"id": "C119", "title": "A CANCEL ends exactly the call it names", "statement": "A CANCEL is answered 200; if its call is ringing the INVITE then gets 487 with the tag of the 180 and no dialog is left; and an INVITE is answered 487 only if a CANCEL with the same Call-ID, CSeq number and From tag has come.", "quantifier": "all histories, all orders of the turns of the two handlers", "why_tests_cant": "a race between two handlers over a shared table", "anchors": ["bins/siphond/src/handlers/cancel.rs: CancelHandler::handle, create_487_response", "bins/siphond/src/invite_state.rs: InviteStateManager", "bins/siphond/src/handlers/invite.rs: InviteHandler::handle"]}
{"id": "C120", "title": "Requests within a call act on that call alone", "statement": "A BYE, UPDATE, INFO or PRACK of no stored dialog gets 481; a BYE of one gets 200 and removes that dialog only; a re-INVITE or UPDATE gets 400 if its CSeq is not in order, 488 if its offer is not acceptable, and otherwise 200, with the number recorded, the dialog's data kept up to date and all other dialogs as they were; a PRACK is checked against the reliable responses of its own dialog, gets 200 exactly if one of them is acknowledged, and the acknowledgement is kept; and a dialog no request names stays as it is until its session expires.", "quantifier": "all reachable states, all requests, all events in between", "why_tests_cant": "every request can touch a table shared by all calls", "anchors": ["bins/siphond/src/handlers/bye.rs: ByeHandler::handle", "bins/siphond/src/handlers/update.rs: UpdateHandler::handle", "bins/siphond/src/handlers/info.rs", "bins/siphond/src/handlers/prack.rs", "bins/siphond/src/handlers/invite.rs: InviteHandler::handle", "bins/siphond/src/main.rs: session timer task"]}
{"id": "C121", "title": "Only a party to a call may replace it", "statement": "An INVITE with a Replaces header is answered with 400 if the header names no dialog, with 481 if the dialog is not there or the sender (the authenticated user, or without authentication the user in From) is neither of its two users, and is otherwise taken as a new call, after which the replaced call is ended.", "quantifier": "all states, all requests, all Replaces values", "why_tests_cant": "the header is free text, and who may replace which call depends on every call there is", "anchors": ["bins/siphond/src/handlers/invite.rs: InviteHandler::handle, parse_replaces_dialog_id, replaces_initiator_authorized, users_equivalent"]}
{"id": "C122", "title": "Nobody gets past the daemon's guard", "statement": "With authentication on, a request other than ACK, CANCEL, OPTIONS and REGISTER changes something, or is answered with anything but 401/407, 483 or 503, only if it carries the digest of a user's password over a nonce that the daemon drew for an earlier, refused request not too long ago; in any stretch of time no address has more than 4 requests plus one per 30 s verified and no more than 11 INVITEs plus one per 2 s accepted; Max-Forwards 0 gets 483; and all that is true of calls holds behind the guard.", "quantifier": "all histories of requests from any number of addresses, interleaved with the daemon's tasks, with any clock", "why_tests_cant": "credentials, nonces and token buckets depend on the whole history of all clients", "anchors": ["bins/siphond/src/dispatcher.rs: check_auth, dispatch, send_rate_limited", "bins/siphond/src/services.rs: ServiceRegistry::new", "bins/siphond/src/handlers/invite.rs: InviteHandler::handle (rate limit), send_rate_limited", "crates/sip-auth/src/lib.rs: DigestAuthenticator", "crates/sip-ratelimit/src/lib.rs: RateLimitConfig::auth_preset, invite_preset"]}
{"id": "C123", "title": "An answer says exactly what both sides can do", "statement": "The answer to an offer has one stream for each stream of the offer, in the same order and of the same type; a stream is refused (port 0) exactly when the application says so or no codec is in common, and otherwise has exactly the formats both sides support, each with the encoding and parameters it has in the offer, the opposite direction (what one sends the other receives) and a port of its own.", "quantifier": "all offers, codec lists, options and iteration orders of the engine's hash maps", "why_tests_cant": "formats and attributes are free text in any order and number, and the engine goes through a hash map whose order changes from run to run", "anchors": ["crates/sip-core/src/sdp_offer_answer.rs: OfferAnswerEngine::generate_answer, negotiate_media, extract_rtpmaps, find_fmtp_for_payload, create_rejected_media, CodecInfo::matches", "crates/sip-core/src/sdp.rs: RtpMap::parse, to_value, Fmtp::parse, Direction"]}
{"id": "C124", "title": "Hold and resume change directions and nothing else", "statement": "A hold offer made from a session is that session with the version one higher and with every stream no longer received while what was sent is still sent; a resume offer is the session with the version one higher and every stream received again; held and resumed, a session is as it was.", "quantifier": "all sessions, with any number of streams, attributes and directions", "why_tests_cant": "the attributes of a stream are an arbitrary list in which the direction may be missing or repeated", "anchors": ["crates/sip-core/src/sdp_offer_answer.rs: create_hold_offer, create_resume_offer, get_media_direction"]}
{"id": "C125", "title": "Preconditions are met when they are met, on both sides", "statement": "The preconditions of a stream are reported as met exactly when each mandatory desired status has a current status of its kind that reserves what is desired; the answer to an offer mirrors each of its quality-of-service preconditions, in order, as the other side sees it, so that offerer and answerer agree on whether end-to-end preconditions are met; and what is written is read back.", "quantifier": "all attribute lists and all statuses", "why_tests_cant": "any number of preconditions in any order, written in any mixture of cases and blanks", "anchors": ["crates/sip-core/src/sdp.rs: SdpSession::are_preconditions_met, direction_meets_requirement, CurrentStatus, DesiredStatus, ConfirmStatus, StatusType::invert, PreconditionDirection::invert", "crates/sip-core/src/sdp_offer_answer.rs: OfferAnswerEngine::handle_preconditions"]}
{"id": "C126", "title": "A request within a call is passed on to its next hop", "statement": "In proxy mode a BYE, CANCEL, PRACK, UPDATE, INFO, MESSAGE or ACK is sent on exactly once, or not at all: to its top Route, or if that names the proxy or there is none to its Request-URI; with the proxy's own Via on top, Max-Forwards one lower, the proxy's Route and the proxy credentials removed and everything else as it came; not if it has been at the proxy before or Max-Forwards is used up.", "quantifier": "all requests, peers, histories and hash functions", "why_tests_cant": "Route and Via values are free text; a loop shows only in combination with the hash of other headers", "anchors": ["bins/siphond/src/proxy_utils.rs: forward_request, next_hop_from_request, remove_top_route, select_transport, strip_hop_by_hop_request_headers", "bins/siphond/src/handlers/bye.rs, cancel.rs, info.rs, message.rs, prack.rs, update.rs", "bins/siphond/src/main.rs (ACK)"]}
{"id": "C127", "title": "An INVITE goes to the registered contact", "statement": "In proxy mode an INVITE is answered 100, and then is sent to the first contact stored for its Request-URI, which becomes the Request-URI, with the proxy's Via on top, its Record-Route, and Max-Forwards one lower; or it is answered 404 if there is no contact, 483 if Max-Forwards is used up.", "quantifier": "all INVITEs, peers, location stores and histories", "why_tests_cant": "the location store is asked under several keys and may hold anything", "anchors": ["bins/siphond/src/handlers/invite.rs: handle_proxy", "crates/sip-proxy/src/lib.rs: ProxyHelpers"]}
{"id": "C128", "title": "A response goes back to where its request came from", "statement": "In proxy mode a response is sent to the peer from which the proxy took the request with the branch of the response's top Via, without that Via and otherwise unchanged, as long as no final response to it has come and it is younger than five minutes; every other response is left to the daemon's own client transactions; so the answer to what was sent reaches the sender with the Vias that the sender had sent.", "quantifier": "all histories of requests, ACKs, responses and clean-ups", "why_tests_cant": "which request is open depends on the whole history; branches are computed from free text", "anchors": ["bins/siphond/src/proxy_state.rs: ProxyStateManager", "bins/siphond/src/main.rs (responses, clean-up)"]}
{"id": "C129", "title": "A CANCEL and an ACK belong to the INVITE that was sent on", "statement": "A CANCEL, or an ACK of a final response, that the proxy sends on has the branch and the Request-URI of the INVITE that it sent on, so that the next hop can match them.", "quantifier": "all INVITEs and all other requests, histories and hash functions", "why_tests_cant": "relates messages of different histories, and every possible random branch", "anchors": ["bins/siphond/src/handlers/cancel.rs", "bins/siphond/src/handlers/invite.rs: handle_proxy", "bins/siphond/src/proxy_utils.rs: forward_request", "crates/sip-transaction/src/lib.rs: generate_branch_id"]}
{"id": "C130", "title": "A URI is read as what its text says", "statement": "A text is read as a SIP, tel or other URI exactly if it has the form of one, and the parts read (scheme, user, host, port, parameters, headers; number and context) are the parts the text has; in particular the host that a SIP URI names is the host that is used.", "quantifier": "all texts", "why_tests_cant": "acceptance and meaning over all texts: percent escapes, UTF-8, IPv6 texts with and without compression, repeated parameters, limits", "anchors": ["crates/sip-core/src/uri.rs: SipUri::parse, split_host_port, validate_host, validate_user, Uri::parse, parse_absolute_uri", "crates/sip-core/src/tel_uri.rs: TelUri::parse, validate_telephone_number, validate_phone_context"]}
{"id": "C131", "title": "Capabilities mean what was put into them", "statement": "A capability value is accepted exactly if its texts are within the limits; a set of capabilities satisfies a required set exactly if it has, for every tag required, a value that satisfies the required one; the parameters written for a set are exactly those of its tags, and what is read from parameters is what their texts say; written and read again, a set is unchanged.", "quantifier": "all capability sets that can be built, all parameter maps, all values", "why_tests_cant": "all texts and all combinations of tags and value types", "anchors": ["crates/sip-core/src/capabilities.rs: CapabilitySet, Capability, FeatureValue"]}
{"id": "C132", "title": "Contacts are filtered, scored and ordered as RFC 3841 asks", "statement": "Of the contacts of a user, those that a Reject-Contact matches or that miss an Accept-Contact with require are left out; the others get as caller preference the mean, over the Accept-Contact headers, of the share of the features they meet, between 0 and 1; they come in descending order of the callee's preference, then of the caller's, equal ones in their old order. Contacts without features are not affected.", "quantifier": "all lists of contacts, Accept-Contact and Reject-Contact headers and capabilities", "why_tests_cant": "all combinations of lists; rounding; stability of the order", "anchors": ["crates/sip-core/src/caller_preferences.rs: score_contacts, AcceptContact::matches, RejectContact::matches, ScoredContact"]}
{"id": "C133", "title": "A Request-Disposition is read and written faithfully", "statement": "A text is read as a Request-Disposition exactly if it has no control characters and at least one of the twelve words; of each pair of words the last decides, in any case; what is written is read again as the same directives.", "quantifier": "all texts, all sets of directives", "why_tests_cant": "all texts", "anchors": ["crates/sip-core/src/caller_preferences.rs: RequestDisposition"]}
{"id": "C134", "title": "A Replaces header names the dialog that its text names", "statement": "A text is read as a Replaces header exactly if it is a Call-ID with exactly one to-tag, exactly one from-tag and otherwise only early-only, in any order and case and with blanks around the parts; no text names two dialogs; what was read, or made by the API, is read back as the same dialog when it is written.", "quantifier": "all texts, all Call-IDs and tags", "why_tests_cant": "all texts, and round trips over all values the API accepts", "anchors": ["crates/sip-core/src/replaces.rs: ReplacesHeader::parse, new, with_early_only, Display"]}
{"id": "C135", "title": "The agreed security mechanism is the preferred one that both sides have", "statement": "A mechanism is chosen exactly if client and server name one in common; it is the first entry of the server with the highest product of the two preferences, where a missing or malformed preference counts as 0.001; entries sorted by preference come in descending order, equal ones as listed; the verification finds that the client repeats the list that the server sent.", "quantifier": "all lists of entries, all parameters, all numbers and any rounding", "why_tests_cant": "all combinations of lists and preferences; ties; rounding", "anchors": ["crates/sip-core/src/security.rs: SecurityServerHeader::find_best_match, sorted_by_preference, SecurityVerifyHeader::matches, SecurityEntry::preference, set_param, set_preference"]}
{"id": "C136", "title": "Security-Client, Security-Server and Security-Verify are read as they are written", "statement": "A text is read as one of these headers exactly if it is a list of one to ten entries, separated by commas outside quoted strings, each a mechanism with parameters separated by semicolons outside quoted strings, in which the last setting of a name counts; written entries are read back unchanged.", "quantifier": "all texts, all lists of entries", "why_tests_cant": "all texts: quoting and escapes, repeated and malformed parameters, limits", "anchors": ["crates/sip-core/src/security.rs: parse_security_client, parse_security_server, parse_security_verify, parse_security_entries, parse_single_security_entry, split_unquoted, split_once_unquoted, Display"]}
{"id": "C137", "title": "Every message is captured under its own Call-ID", "statement": "With a capture server configured, each message sent or received on a connection or as a datagram gives exactly one packet, with the addresses of sender and receiver, the message (at most its first 60 KiB) and its Call-ID: the value of the first Call-ID header in either form before the first empty line, never anything from the body; for a message that the serializer wrote it is the Call-ID of that message. The first configuration stays in force.", "quantifier": "all messages as bytes, all messages the API can build, all histories of configuration", "why_tests_cant": "all byte strings: line ends, cases, compact names, bodies that look like headers", "anchors": ["crates/sip-hep/src/headers.rs: extract_call_id", "crates/sip-hep/src/emitter.rs: SipHepEmitter::emit_sip, set_emitter", "crates/sip-transport/src/pool.rs: emit_pool_hep", "crates/sip-parse/src/lib.rs: serialize_request, serialize_response"]}
{"id": "C138", "title": "A Reason header says why: what was given is what is read", "statement": "A text is read as a Reason header exactly if it is a protocol followed by parameters between semicolons, with names in any case of which none comes twice, and values as they are or in quotes with escapes; a parameter is found under its name in any case, the cause is a number of 16 bits; a reason made for a SIP response or a Q.850 cause is read back from its text with its number and words.", "quantifier": "all texts, all protocols and parameter tables, all codes and words, all causes", "why_tests_cant": "all texts; round trips over all values the API accepts", "anchors": ["crates/sip-core/src/reason.rs: ReasonHeader::new, sip, q850, get_param, cause_code, text, as_q850_cause, Display, parse_reason_header, parse_reason_from_string, Q850Cause"]}
{"id": "C139", "title": "A message summary says what waits", "statement": "A body is read as a message summary exactly if it has a status line and each status is yes or no, and each account and field is a good value; of several lines of one kind the last counts, unreadable numbers and unknown lines are passed over, and each group of lines between blank lines describes one message; what was set is read back from the written body; totals are the sums over the classes.", "quantifier": "all bodies, all summaries", "why_tests_cant": "all texts: orders, repetitions, blank lines; round trips over all values; sums near the limit", "anchors": ["crates/sip-core/src/message_waiting.rs: parse_message_summary, parse_message_counts, MessageSummary (Display, set_account, add_message_class, add_message_header, total_new, total_old, has_urgent), MessageHeader"]}
{"id": "C140", "title": "A URI from outside brings no header fields", "statement": "A SIP URI of which the headers are removed has none afterwards: neither in its table nor in its text, whoever reads that text again; its scheme, user, host, port and parameters are as before. Other URIs are not changed. This holds for every SIP URI in whatever case its scheme is written.", "quantifier": "all texts that are read as a URI", "why_tests_cant": "all texts: percent escapes, question marks, repeated and empty headers", "anchors": ["crates/sip-core/src/uri.rs: SipUri::without_uri_headers, Uri::without_uri_headers, build_raw_sip_uri, Uri::parse"]}
{"id": "C141", "title": "Priorities, Refer-Sub and entity tags are read as what they say", "statement": "A text is read as a Priority exactly if it is one of the four words in any case or another token of at most 32 bytes, and the words are ordered by urgency; as a Resource-Priority exactly if it is a list of at most ten values `namespace.priority`; as a Refer-Sub exactly if it is true or false; as an entity tag exactly if it is a token of at most 128 bytes, and a condition holds exactly for the tag it names. What was made by the API or read is read back unchanged from what is written.", "quantifier": "all texts, all values the API accepts", "why_tests_cant": "all texts; round trips over all values", "anchors": ["crates/sip-core/src/priority.rs: PriorityValue::parse, as_str, urgency_level", "crates/sip-core/src/resource_priority.rs: ResourcePriorityHeader::parse, add_value, ResourcePriorityValue::new, parse, Display", "crates/sip-core/src/refer_sub.rs: ReferSubHeader::parse, Display", "crates/sip-core/src/sip_etag.rs: SipETagHeader, SipIfMatchHeader::matches_etag"]}
{"id": "C142", "title": "A list of option tags or methods is read as what it lists", "statement": "A text is read as an Allow, Supported, Require, Proxy-Require or Unsupported list exactly if it lists one to fifty tokens between commas, and the list has them in order; it is asked for a token in any case; a list that was made is read back unchanged from what is written; no element of the text hides another.", "quantifier": "all texts, all lists", "why_tests_cant": "all texts and lists: blanks, empty elements, limits", "anchors": ["crates/sip-core/src/token_list.rs: TokenList::parse, from_tokens, add_token, contains, Display", "crates/sip-parse/src/header_values.rs: parse_allow_header, parse_supported_header"]}
{"id": "C143", "title": "A Date header is the date the peer gave", "statement": "A text is accepted as a Date exactly if it has the form of one, and is kept; a date is past, or to come, exactly if its time is; a header made from a time has that time; what is no date is not taken for one.", "quantifier": "all texts, all times of the clock, whatever httpdate does", "why_tests_cant": "all texts and all clocks", "anchors": ["crates/sip-core/src/date.rs: DateHeader::new, from_timestamp, is_past, is_future, is_valid_date_format", "crates/sip-parse/src/header_values.rs: parse_date_header"]}
{"id": "C144", "title": "A message fragment describes its body", "statement": "A fragment takes a body exactly if it has at most 65536 bytes and, unless it is empty, the fragment's headers have a Content-Type and a first Content-Length equal to its number of bytes; whatever headers and bodies are put in later, in any order, this stays true. A fragment is written as its start line, its headers and its body, and can always be written.", "quantifier": "every fragment, every response it is made from, every sequence of calls that add headers and set bodies", "why_tests_cant": "the invariant is about every history of calls and every body", "anchors": ["crates/sip-core/src/sipfrag.rs: SipFrag, validate_body_headers, with_body, set_body, with_header, from_response, headers_mut, Display"]}
{"id": "C145", "title": "Event and Subscription-State headers say what their text says", "statement": "A text is accepted as an Event header exactly if it is a package and parts between semicolons that are names or names with values, all tokens within their limits, with at most one id and no parameter twice; the header then has that package, that id and exactly those parameters, found under their names in any case. Likewise Subscription-State, whose state is active, pending or terminated in any case or another token. Forms that RFC 3261 allows are accepted and others are not.", "quantifier": "every text, every table of parameters, every name and value", "why_tests_cant": "the acceptance and the result are about every text", "anchors": ["crates/sip-core/src/event.rs: EventHeader, SubscriptionStateHeader, SubscriptionState::parse, add_param, get_param", "crates/sip-parse/src/header_values.rs: parse_event_header, parse_subscription_state"]}
{"id": "C146", "title": "A media type is read as it was written", "statement": "A media type takes a parameter exactly if its name is a token, its value is a token or a quoted text within the limits, there is room, and it has none of that name; the value, without quotes and escapes, is then found under the name in any case. To read a text is to make the type its first part names and to add the parameters its other parts name. Every media type that can be made is read back from its text as itself.", "quantifier": "every text, every type, every sequence of parameters added to it", "why_tests_cant": "values may hold any characters and escapes, and the round trip is about every type that can be made", "anchors": ["crates/sip-core/src/mime.rs: MimeType, add_param, param, to_string_with_params, normalize_param_value, parse_mime_type"]}
{"id": "C147", "title": "The version is SIP/2.0", "statement": "A text names the version of the protocol exactly if, without the spaces and tabs around it, it is SIP/2.0 in any case.", "quantifier": "every text", "why_tests_cant": "it is about every text", "anchors": ["crates/sip-core/src/version.rs: SipVersion::parse"]}
{"id": "C148", "title": "A Subject is one line of text", "statement": "A text is accepted as a Subject exactly if it is one line of text of at most 256 characters that are not all blank, UTF-8 text included, and is kept as it is.", "quantifier": "every text", "why_tests_cant": "it is about every text", "anchors": ["crates/sip-core/src/subject.rs: SubjectHeader, validate_subject"]}
