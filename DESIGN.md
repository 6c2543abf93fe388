# Formal model of siphon-rs in Lean 4 — design

This document says, for every property in `properties.jsonl`, which code is
modelled, how the property is stated and how it is proved.  It also states the
trusted base, what is modelled and what is not, and lists the places where the
code does **not** satisfy the property one would expect ("Findings").

## 1. Trusted base

* Lean 4.33.0's kernel.  Every theorem named in `MANIFEST.json` is checked by
  it; no `sorry`, no `admit`, no user axiom, no `native_decide`, no `bv_decide`.
* Axioms: at most `propext`, `Classical.choice`, `Quot.sound` (the standard
  ones; they enter through `simp`, `omega`, `grind` and Lean core/Mathlib lemmas).
  `AXIOMS.md` lists the axioms of every claimed theorem, as printed by
  `#print axioms`.
* The correspondence model <-> Rust code.  It is by reading: each definition
  cites file and lines in /repo, and says where it simplifies.
* Not modelled anywhere: the Rust compiler and runtime, DashMap internals (a
  DashMap is a finite map; an operation that takes the entry lock is atomic),
  memory exhaustion, hash functions and random generators (parameters or inputs
  of the model), the operating system, sockets, TLS, DNS servers (their answers
  are arbitrary inputs).

## 2. Conventions

* Strings are `List Char`; byte strings are `List UInt8` (or `List Nat` where the
  bytes themselves are opaque).  A Rust byte length of a `str` is the sum of
  `Char.utf8Size`.
* Time is a `Nat` (milliseconds or nanoseconds, stated in each file), supplied as
  an argument; monotone clocks are a hypothesis of the run, not of the function.
* A component is `State`, `Op`, `step : State -> Op -> State × Out`; a history is
  a list of operations and theorems are by induction on it.
* Rust panics are explicit results (`none` / `Except.error`) where they can occur.
* Concurrency: where the property is about schedules, the code is cut at the
  points where it takes or releases a lock, and the theorem quantifies over all
  interleavings (`*/Race.lean`, `Dialog/Store.lean`, `Dialog/TimerManager.lean`,
  `Dialog/Refresh.lean`, `Dialog/PropsPrack*.lean`).  Elsewhere calls run one
  after the other, and the property says so.
* Files: `Verif/<Area>/Model.lean` (code), `Spec.lean` (independent vocabulary),
  `Lemmas.lean` (proof internals), `Props.lean` (the property theorems and the
  non-vacuity examples).  A specification does not call the model's helpers; it
  uses relations such as `Pieces`, `Words`, `Decimal`, `Strips` (Base/TextSpec)
  that are defined by concatenation, not by the parsing functions.

## 3. Plan per property

| id | modelled code | statement / proof method |
|----|---------------|--------------------------|
| C01–C03, C07, C08 | `fsm.rs` client INVITE, `timers.rs` | step function with action lists; trace invariants by induction over event lists; armed-timer set obtained by interpreting schedule/cancel actions |
| C04, C07, C08 | `fsm.rs` client non-INVITE | same |
| C05, C07, C09 | `fsm.rs` server non-INVITE | same |
| C06, C07, C09 | `fsm.rs` server INVITE | same |
| C10–C13 | `manager.rs` | manager state = ordered tables of FSMs; transport outcome is an oracle argument; invariants by induction on operations; concurrent admission in `Manager/Race` |
| C14–C17, C74, C90, C91 | `sip-dialog/lib.rs` Dialog | dialog record, full header collections; induction on histories; creation and updates compared with a relational description of the messages |
| C18, C19 | DialogManager, DialogId | finite map; induction; mirror-image identity |
| C20, C83, C84 | `prack_validator.rs`, `sip-uas` PRACK handling | per-dialog list, retransmission task per response; interleavings of steps |
| C21, C27 | RSeqManager, `rseq.rs` | random initial value is an input; negation beyond 2^31-1, partial below; print/parse round trip |
| C22, C82 | `session_timer.rs`, `session_timer_manager.rs` negotiation, UAS/UAC use | arithmetic decision functions; both ends compared |
| C23, C24 | `headers.rs` | validated header lists; serializer lines |
| C25 | `max_forwards.rs` | decimal parse/print; chain measure |
| C26, C28 | `method.rs`, `via.rs` | print/parse round trips on `List Char` |
| C29, C30, C92, C93 | `sip-parse/lib.rs` | character-level parser and serializer; acceptance iff a grammar relation; exact normal form after a round trip; combined with the framer for streams |
| C31–C34 | `sip-transport/lib.rs` framing | byte-level framer; confluence of draining with appending |
| C35–C39, C66–C68 | `sip-auth/lib.rs`, `sip-uac` retry, `auth.rs` | nonce table with clock; hash is a parameter; text of challenge, credentials and info written and read back |
| C40–C46, C70, C71 | `sip-registrar/lib.rs` | location store with clock; handler over full requests; interleavings in `Registrar/Race` |
| C47–C49, C65 | `sip-ratelimit/lib.rs` | token buckets with clock; refinement to one bucket per key; interleavings in `RateLimit/Race` |
| C50–C56, C72, C73 | `sip-proxy` | fork context with responses; Via list; loop branch hash is a parameter |
| C57–C61, C94, C95 | `sip-dns` | random choices and DNS answers are inputs; outcome relation proved equal to a relational specification |
| C62–C64 | `sip-sdp/negotiate.rs` | offers and capabilities as records; answer characterised stream by stream |
| C69 | `uri.rs`, `tel_uri.rs` | print/parse round trip and effect of each `with_*` |
| C75 | `sip-dialog/storage.rs` | two maps updated in separate steps; histories of one thread and interleavings |
| C76 | `session_timer_manager.rs` manager | tasks as states of a small runtime; time is a step |
| C77–C81 | `sip-uac` request builders, `sip-dialog`, `integrated.rs` refresh | full header collections; peer's dialog matching applied to the built request; interleavings of refresh/BYE |
| C85–C89 | `sip-uas` | responses built over full header collections; panic is a result; dispatcher as a function of request and tables |
| C96, C97 | `sip-sdp/parse.rs`, `serialize.rs` | character-level parser; acceptance iff line grammar; round trip iff writable |
| C98 | `sip-sdp/profiles.rs`, siphond `sdp_utils.rs` | answer builder whose failures are panics; invariant over the added codecs; texts through parser and writer |
| C99–C101 | `sip-transport/pool.rs` | labelled transition system of calls, writers, supervisors, cleanups; permits, entries and sockets counted by an invariant; losses as runs |
| C102–C104 | `sip-dialog` subscriptions, `sip-uas`, `sip-uac`, siphond `subscribe.rs`, `notify.rs` | table against a list specification; both steps of a cleanup interleaved; subscriptions and NOTIFYs over full header collections; the built NOTIFY given to the peer's lookup |
| C105–C107 | siphond `refer.rs`, `sip-uas` `accept_refer`, `sip-uac` `create_refer_with_replaces` | the handler over full headers, tables and configuration; the reports by induction over the events of the client transaction (the model of C01); address filter against a list of ranges; percent decoding against a relational grammar |
| C108–C110 | `sip-identity` (sign, passport, header, verify, chain) | byte-level JSON reader and writer, base64url and UTF-8 against relational grammars (iff); tokens and headers as relations over these; cryptography and certificates as arbitrary oracles; DER integers against big-endian numbers |
| C111–C112 | `sip-core/privacy.rs` | header text against relational grammar (iff); exact result over the header collection; non-interference of two messages; dialog identifiers of C90's model before and after |
| C113–C117 | siphond `b2bua_state.rs`, B2BUA parts of `handlers/invite.rs`, `bye.rs`, `cancel.rs`, `main.rs` | labelled transition system of requests, responses, relay turns, CANCEL steps and clean-ups over the leg table, the channels and the dialog manager; invariants over all histories; exact header lists of every message built |
| C118–C120 | siphond as user agent server: `dispatcher.rs`, `invite_state.rs`, UAS parts of `handlers/invite.rs`, `cancel.rs`, `bye.rs`, `update.rs`, `info.rs`, `prack.rs`, timer and clean-up tasks of `main.rs` | labelled transition system of requests, turns of waiting handlers, session expiries and clean-ups over the dialog manager, the table of pending INVITEs and the waiting handlers; frame lemmas for every event, invariants over all histories |
| C121 | `Replaces` in `handlers/invite.rs` 1211-1271, 1542-1621 | the value is specified by pieces and last parameters, and the parser proved equivalent; decision logic over all states |
| C122 | `dispatcher.rs` `check_auth` with `DigestAuthenticator`, and the two rate limiters around the daemon of C118–C121 | product of the three models; projection of a history to operations of the authenticator (C35, C36) and of each limiter (C47); simulation by the unguarded daemon |
| C123, C124 | `sip-core/src/sdp_offer_answer.rs` (answers, hold, resume) with `RtpMap`, `Fmtp`, `Direction` of `sdp.rs` | hash iteration order as an arbitrary permutation; a relation "format p means encoding r in this stream" read off offer and answer alike; induction over streams and attributes |
| C125 | preconditions of `sip-core/src/sdp.rs` and `handle_preconditions` | texts specified by words, statuses by what is reserved for sending and receiving; lists compared item by item |
| C126 | `forward_request` and the handlers that call it | next hop and Route as relations on text; the loop by what a Via names; both directions |
| C127 | `handle_proxy` | both directions, each of the three outcomes |
| C128 | the map of branches, responses and clean-up | invariant: the map holds exactly the requests still open after the history (inductive on events); round trip from it |
| C129 | the same | does not hold: the lengths of the branches differ |
| C130 | `SipUri::parse`, `TelUri::parse`, `Uri::parse` (`Core/Uri.lean`) against a relational description of the texts (`Core/UriText.lean`, `Core/Ipv6Spec.lean`) | equivalence for all texts: each reader is shown to decide its relation; tables by induction over the pieces; IPv6 by induction over the groups |
| C131 | `capabilities.rs` (`Prefs/Model.lean`): a set as a function from the 19 tags; numbers are rationals with a parameter `Floats` for rounding, text and reading | equivalences with relations on values and texts; parameters by induction over the entries; round trip from the two |
| C132 | `caller_preferences.rs` `score_contacts` with the same `Floats` | equivalence with a relational description; order by the uniqueness of stable sorting; bounds from monotone rounding that is exact on a grid |
| C133 | `RequestDisposition` | equivalence with a description of the text, by induction over the pieces; round trip |
| C134 | `replaces.rs` (`Core/Replaces.lean`) against a relational description of the text (`Core/ReplacesSpec.lean`) | equivalence by induction over the parameters with the tags read so far; round trip from the equivalence |
| C135 | `security.rs` (`SecAgree/Model.lean`): entries with ordered parameters; `f32` as rationals with a sign for zero, and a parameter `Floats` for rounding, reading and three-digit text | choice: induction over the server's entries with the best so far, and uniqueness of the best; order: stable insertion; preference: the first of `Q`, `q` in the ordered map |
| C136 | the three parsers of `security.rs` against a relational description of texts with quoted strings (`SecAgree/Spec.lean`) | the splitters are shown to follow an automaton for quotes; entries by induction over the pieces; limits by counting distinct names |
| C137 | `sip-hep` (`Hep/Model.lean`) over bytes, with the serializers of `Parse/Model.lean` | equivalence with a description of the lines, by induction over the lines; ASCII bytes are found in UTF-8 text only as their own characters; written messages are such lines |
| C138 | `sip-core/reason.rs` (`Reason/Model.lean`) | equivalence with a description of the text by induction over its parameters; the round trip from the pieces of the written text; tables by cases |
| C139 | `sip-core/message_waiting.rs` (`Mwi/Model.lean`) | each line is read as described; the loop is related to list functions over what the lines say by induction over the lines; the round trip from the written lines |
| C140 | `SipUri::without_uri_headers`, `Uri::without_uri_headers` (`Core/Uri.lean`) on what `Uri::parse` gives | the characters of the rebuilt text; the relational reading of C130 |
| C141 | `PriorityValue`, `ResourcePriorityHeader`, `ReferSubHeader`, `SipETagHeader`, `SipIfMatchHeader` (`Prio/Model.lean`) against relations on texts (`Prio/Spec.lean`) | equivalence for all texts; induction over the pieces of a list; round trip |
| C142 | `TokenList`, `parse_allow_header`, `parse_supported_header` (`Tokens/Model.lean`) against `Tokens/Spec.lean` | equivalence for all texts; trimming before and after splitting shown to agree; round trip by induction |
| C143 | `DateHeader`, `parse_date_header` (`Date/Model.lean`), httpdate as a parameter, against `Date/Spec.lean` | equivalence for all texts, case analysis on the clock |
| C144 | `SipFrag` (`Frag/Model.lean`) against `Frag/Spec.lean` | invariant over every history of calls, equivalence for the text |
| C145 | `EventHeader`, `SubscriptionStateHeader` and their readers (`Event/Model.lean`) against `Event/Spec.lean` | induction over the parts, equivalence for all texts |
| C146 | `MimeType` (`Mime/Model.lean`) against `Mime/Spec.lean` | invariant over every type that can be made, induction over its parameters |
| C147 | `SipVersion::parse` (`Version/Model.lean`) against `TextSpec` | equivalence for all texts |
| C148 | `SubjectHeader` (`Subject/Model.lean`) | equivalence for all texts |

Every property above is expressible in a model; none is marked
`not_applicable`.  Properties the code violates are handled as: a theorem giving
a concrete reachable witness (negation), and a theorem with the weakest side
condition found (suffix `_partial` if it is the main statement).

## 4. What is modelled and what is not

Modelled, function by function (the comment on each definition cites the lines):

* `sip-transaction`: the four state machines, timers, the transaction manager
  (start, receive, send, timer firing, failover, eviction, reaping).
  Not modelled: metrics, `storage.rs` (an unused trait), tracing.
* `sip-dialog`: `Dialog`, `DialogId`, `DialogManager`, RSeq manager, PRACK
  validator, session timer negotiation and manager, dialog store,
  subscriptions and their manager.
* `sip-core`: `headers`, `method`, `max_forwards`, `uri`, `tel_uri`, `via`,
  `rseq`, `session_timer`, `msg`, `name_addr`, `route`, the parts of `auth` used
  by digest, `privacy`, the offer/answer engine `sdp_offer_answer` with the parts
  of `sdp` that it reads and writes, `capabilities`, `caller_preferences` (without
  the texts of Accept-Contact and Reject-Contact), `replaces`, `security`.  Not modelled: the text parser of `sdp`, header types that no modelled component uses
  (geolocation, presence documents, CPIM, ...).
* `sip-parse`: message parser (lenient and strict), serializer.
* `sip-transport`: stream framing, connection pools (slots, channels, writers,
  supervisors).  Not modelled: sockets, readers, keep-alives, TLS handshakes,
  WebSocket framing.
* `sip-auth`, `sip-ratelimit`, `sip-registrar`, `sip-proxy` (stateful fork
  context, stateless helpers, CANCEL/ACK matching, service layer), `sip-dns`
  (SRV/NAPTR/A selection, ENUM, DHCP), `sip-sdp` (negotiation, text, profiles).
* `sip-uac`: request builders in a dialog, digest retry, refresh scheduling.
  `sip-uas`: response builders, dispatcher, reliable provisionals, rport.
  Not modelled: the event loops of `integrated.rs` beyond the pieces cited.
* `bins/siphond`: INVITE reliability, SDP answers, SUBSCRIBE, NOTIFY and REFER
  handlers, the back-to-back mode, the daemon as user agent server with its
  dispatcher, authenticator and rate limiters, the proxy mode.
* `sip-identity`: signing, PASSporT, Identity header, verification, DER
  conversion.  `serde_json` and `base64` are modelled after their documented
  behaviour; `ring` and `webpki` are arbitrary functions.
* `sip-hep`: finding the Call-ID, packets and the global emitter; not the encoding (crate `hep-rs`).
* Not modelled: `sip-observe`, `sip-testkit`, most of
  `bins/siphond` (configuration, metrics).

## 5. Findings

Each line is a behaviour of the code that contradicts the property one would
expect.  "proved" names the theorem with the concrete witness.

### Transactions
* A second final response is accepted by an INVITE server in Completed/Confirmed and sends it back (`C07_server_invite_goes_back`).
* A configured table limit of 0 is not enforced (`C10_zero_limit_not_enforced`); with concurrent starts the table can grow without bound (`Race.C10_concurrent_unbounded`).
* `receive_request` returns the same handle for a request and its copies and siphond dispatches every one (`C11_copies_look_alike`); after a 2xx a copy of the INVITE opens a new transaction (`C11_after_2xx_new_transaction`); the INVITE server ignores CANCEL (`C11_cancel_ignored`).
* A retransmitted 2xx reaches nobody (`C01_second_2xx_lost`); a stray ACK opens a server transaction without timer (`C09_stray_ack_stays`); starting a live key replaces it silently (`C13_restart_replaces`).
* Observed, not proved: Timer A is capped at T2, Timer B stays armed in Proceeding, non-2xx finals are delivered again in Completed.

### Transport
* A framing error discards messages already extracted in the same read (`C31_error_loses_messages`); a header block of 65534–65536 bytes is refused if the blank line is split across reads (`C31_limit_matters`).

### Dialogs, PRACK, session timers
* ACK after PRACK refused (`C14_ack_after_prack`); local CSeq repeats at 2^32-1 (`C15_repeats`); an error response moves the target (`C17_error_moves_target`); a full table refuses updates (`C18_full_refuses_update`); `;tag=` in a URI is taken for the tag (`C19_tag_inside_uri`).
* A display name with a multi-byte character can panic tag extraction (`C74_display_name_panics`, `C86_name_crashes`).
* RSeq leaves its range and repeats (`C21_out_of_range`); an eleventh reliable response makes the first unacknowledgeable (`C20_eleventh`); reused numbers shadow (`C20_shadowed`); cleanup forgets (`C20_forgets`, `C83_forgotten`); last copy at 35.5 s (`C83_too_late`); wrong codes for refused PRACKs (`C84_mismatch_400`, `C84_garbled_481`); dialog keys collide for tags with `:` (`C84_key_collides`).
* Short session intervals ignored (`C22_short_ignored`), unreadable value written (`C22_unreadable`), refresher read differently (`C22_case_disagrees`), siphond takes the wrong side (`C22_siphond_inverted`); an interval above 2^32 is truncated before the check (`C91_set_too_long`).
* ACK without CSeq after a tab (`C79_tab`); two requests from one dialog value collide (`C80_second_refused`); display name with `;tag=` (`C80_display_name`); a long tag panics every builder (`C80_long_tag_panics`, `C80_long_tag_reached`); a BYE from a clone collides, a refresh undoes a termination and allows a replay (`C81_*`).
* The dialog store lists a dialog twice and a race loses its listing (`C75_listed_twice`, `C75_race_lost`); session timer manager: race with expiry, late stop, silent limit (`C76_expiry_race`, `C76_late`, `C76_full`).
* RAck with unusual extension methods is not read back (`C27_rack_lost`).

### Messages, headers, URIs
* `Method::Unknown` with a line end injects lines (`C23_method_injection`); a parameter value with `;` injects a Via parameter (`C28_injection`) or a URI parameter (`C69_param_injection`).
* Written but unreadable: URI with a space, blank reason, 200 headers without Content-Length, more than 65 536 bytes (`C29_uri_space`, `C29_empty_reason`, `C29_too_many`, `C29_too_long`).
* The default parser ignores a malformed or ≥ 2^64 Content-Length (`C30_malformed`, `C30_huge`).
* URI user not re-escaped and similar (`C69_user_not_escaped`, `C69_user_unreadable`, `C69_host_case`, `C69_too_long`, `C69_empty_headers_stay`, `C69_new_ipv6`).

### Authentication
* Headers are not covered by the replay check (`C35_headers_not_covered`); a count is consumed before the digest is checked (`C35_count_consumed_before_check`); ambiguous compared text (`C35_text_ambiguous`); table unbounded for maxima below 10 (`C38_small_maximum_unbounded`).
* Correct clients refused: quotes, long URIs, old clients, second challenge (`C37_*`); three client panics (`C67_*`); header spelling (`C68_case`).

### Registrar, rate limiter
* `C41_flows_collide`, `C41_full_refuses_refresh`, `C42_any_host`, `C42_proxy_bypass`, `C43_wildcard_ignores_cseq`, `C43_removed_comes_back`, `Race.C43_race`, `C44_not_atomic`, `C46_min_below_60_fails`, `C70_ipv6_port`, `C71_ambiguous`, `Race.C41_race_over_limit`.
* `C47_needs_idle`, `C48_look_matters`, `Race.C49_limit_exceeded`.

### Proxy
* `C51_after_6xx`, `C51_6xx_sends_no_cancel`, `C51_6xx_after_2xx`, `C51_100_forwarded`, `C51_cseq_tab`, `C51_sequential`, `C52_retransmission`, `C52_late_branch`, `C52_same_id_twice`, `C52_success_repeated`, `C52_late_provisional`, `C53_full_panics`, `C53_joined`, `C54_port`, `C54_joined`, `C54_ambiguous`, `C56_tag_in_uri`, `C56_tag_case`, `C72_record_route_order`, `C73_ack_loses_target`.

### UAS
* `C85_two_tags`, `C85_tag_in_uri`, `C85_cancel_vias`, `C86_full_crashes`, `C86_name_crashes`, `C87_fresh_tags`, `C87_full`, `C87_again_resets`, `C88_spoofed`, `C88_joined`, `C88_full`, `C89_cancel_challenged`, `C89_unknown_call`, `C89_ipv6`.

### Name resolution
* `C57_zero_never_first`, `C59_srv_name`, `C60_new_no_domain`, `C60_not_applied`, `C60_not_terminal`, `C61_dot`, `C61_too_long`, `C94_naptr_doubled`, `C94_tls_port`, `C94_too_many`, `C95_bad_name`.

### SDP
* `C62_ignores_port`, `C62_disabled_accepted`, `C62_static_unchecked`, `C62_wrong_parameters`, `C64_fails`, `C64_local_ignored`, `C64_no_answer`, `C64_session_ignored`, `C96_unreadable_profiles`, `C96_swallowed`, `C96_joined`, `C97_user_name`, `C97_no_format`, `C97_injection`, `C98_panics`, `C98_port`, `C98_order`, `C98_left_out`, `C98_merged`, `C98_not_offered`, `C98_ignored`.

### Connection pools (`sip-transport/pool.rs`)
* A pool full of WebSockets that are not idle refuses every send; they are never evicted, contrary to the comment on `reserve_slot` (422-438, `C99_refused`).
* Two sends to a new peer at once both return `Ok` and both messages are lost: the second insert aborts the first connection, whose supervisor then removes the second one's entry, by key and without a look at whose it is (295, `C100_lost`, `C100_not`). The same happens without concurrent calls when a connection was dropped as idle and its supervisor comes late (`C100_late`).
* The lock on an entry is held while a call waits for room in its channel (514-517, 1107-1139): one peer that does not read blocks sends to other peers, cleanups and evictions (`C100_stalls`).
* A TLS connection is used for another server name at the same address (1117-1135, deliberate; `C100_other_name`).
* A failed write is reported as `Closed` and a connection the pool dropped as `Failed`, the opposite of the documentation (37-51, `C101_swapped`).

### Subscriptions (`sip-dialog`, `sip-uas`, `sip-uac`, siphond)
* A full table refuses to replace a subscription it holds: a refresh is lost (`C102_full_loses_refresh`).
* `cleanup_terminated` collects identifiers and then removes them: a subscription inserted in between under one of them is removed although active (`C102_cleanup_race`).
* `create_notify` of the client does not count: every NOTIFY of a subscription has the same CSeq, and the peer's dialog refuses all but the first (`C104_same_number`).
* The subscription of `accept_subscribe` gets the Contact of the server's own answer, so NOTIFYs have the server itself as Request-URI (`C104_to_itself`).
* siphond's first NOTIFY says `active` also when the SUBSCRIBE ended the subscription (`C104_always_active`), and has two Content-Type and two Content-Length headers, the first type text/plain (`C104_two_types`).
* An event with parameters is stored with them and looked up without: its NOTIFYs get 481 (`C104_parameters_never`).
* A `tag` parameter inside a URI is read as the tag (`C104_uri_tag`).
* The UAC's `refer` never returns a subscription, as its REFER has no Event header (`C103_refer_none`).

### Call transfer (siphond `refer.rs`)
* A failure that is retransmitted is reported again, after the subscription was reported terminated (`C105_repeated`); a transport error is reported twice (`C105_lost_twice`).
* A reason phrase over 128 bytes makes the NOTIFY impossible, which is dropped silently: the transferor never learns the end (`C105_long_reason`). The subscription of a REFER is never removed.
* The NOTIFYs are numbered after the REFER, i.e. in the peer's number space; a peer that saw a higher number of ours refuses them (`C105_number_refused`).
* Only numeric IPv4 targets are ever called: host names and IPv6 literals always give 400 (`C106_names_fail`).
* The filter lets 0.0.0.1 (whole 0.0.0.0/8 but one) and 240.0.0.0/4 pass (`C106_gaps`), and for IPv6 NAT64, 6to4, IPv4-compatible and site-local addresses (`C106_gaps6`; that path is dead at present).
* A target with headers of its own gives a Refer-To with two question marks, and the Replaces is lost (`C107_two_marks`); parameters after `>` go into the Replaces value, a pair without `=` before it or an escaped CRLF makes the transfer blind (`C107_misread`).

### Caller identity (`sip-identity`)
* Signing accepts any text as the certificate's address: with `;` or white space at an end, or an overlong one, the Identity header made from it is not read back; `a>;info=<b` makes a header whose `info` names another certificate than the token (`C108_address_injected`).
* The `info`, `alg` and `ppt` parameters of the header are not compared with the token, and `typ` and `ppt` of the token are not checked (visible in `C109_header`, `C110_signature`).
* A header or claims given as JSON arrays are accepted, the fields taken by position (`C109_arrays_accepted`).

### Privacy (`sip-core/privacy.rs`)
* An unknown word makes the whole Privacy header unreadable, and enforcement is then not asked for: `id;history` gives no privacy (`C111_lost`). Only the first Privacy header counts (`C111_required`).
* The parameters of From and Contact are kept from the first semicolon outside quotes and brackets: after an unquoted display name with a semicolon, or in a Contact with several addresses, they hold the address (`C112_display_leaks`, `C112_contacts_leak`).
* A value over 1024 bytes makes the enforcement fail with the message half changed: From already anonymous, P-Asserted-Identity still there (`C112_half_done`).
* A `;tag=` in a quoted display name is what the dialog layer reads as the tag; after enforcement the request belongs to another dialog (`C112_dialog_moves`).

### Back-to-back user agent (`siphond`, B2BUA mode)
* A multi-byte character at the place where the dialog layer cuts the callee's To makes the relay task panic: the callee's 2xx is never passed on (`C113_panic_loses_final`).
* A callee registered with a host name is never called, since only literal addresses are dialled, and the caller gets nothing after the 100 (`C113_host_name_no_final`).
* A response is taken for the callee's by its Call-ID alone: a response to some other request, from anyone, answers the caller's INVITE (`C113_any_response_answers`).
* The bridge takes no notice of Max-Forwards and writes 70: a user whose registered contact is the bridge itself makes one call go round for ever (`C114_goes_round`).
* A body that is not UTF-8 is not forwarded: the caller gets 100 and nothing else (`C114_binary_body`). Every body goes out as application/sdp, with a Via that says UDP although the request goes over TCP (visible in `C114_invite`).
* The 404 for an unknown user echoes the request's headers without a To tag (`C114_not_found`), and no response to the caller carries Record-Route (`C114_no_record_route`).
* An INVITE with a To tag that no dialog has makes a new call whose To has two tags (`C114_two_tags`); a callee that writes `;TAG=` in capitals is relayed without any tag (`C114_capital_tag`).
* A refusal of the callee is never acknowledged: the caller's ACK ends at the bridge and the bridge sends none (`C115_refusal_not_acked`).
* Five minutes after a call began it is forgotten, whether or not it goes on: a BYE of either party gets 481 and the other party is not told (`C115_five_minutes`).
* A BYE ends a call by its Call-ID alone, whatever its tags (`C115_any_tags`). A BYE before the callee's answer is sent on without a To header, and the answer that follows is lost (`C115_early_bye`).
* The callee's BYE is not passed on to a caller whose INVITE had no Contact, or one with a host name (`C115_caller_not_told`). ACK and BYE go to the registered contact of the callee, not to the Contact of its answer, and have no Route (visible in `C115_ack`, `C115_bye_caller`).
* The handling of a CANCEL races with the relay task. If the call is dropped first, the INVITE never gets a final answer (`C116_no_final`); if the 487 is relayed first, the callee is never sent a CANCEL (`C116_callee_rings_on`). Only the third order works (`C116_cancelled`), and there the 487 has no To tag and the CANCEL keeps the Content-Type of the INVITE without a body.
* A CANCEL after the answer is passed on and drops the call, so that the BYE of the established call gets 481 (`C116_late_cancel`). A CANCEL is matched by Call-ID alone, and one of an unknown call gets 200 (`C116_any_cancel`).
* A re-INVITE is answered at once with 200 and the sender's own body, before the other party has it (`C117_echo`). The INVITE sent on always has the number 1 or 2, so a second one in a direction repeats it (`C117_number`, `C117_no_third`, `C117_repeated`), and its answer is never acknowledged (`C117_no_ack`).
* The dialogs of bridged calls are never removed; once there are 10000 no more are stored and every re-INVITE makes a new call (`C117_kept`, `C117_full`). After a BYE, or five minutes after the start of the call, a re-INVITE gets 100 and nothing else (`C117_after`).
* The daemon as user agent server draws a new To tag for every response: the 180 and the 200 of one INVITE have different tags (`C118_two_tags`), and the early dialog of a reliable 180 stays in the table (`C118_early_left`). A retransmitted INVITE is handled as a second call (`C118_retransmission`), as it is in back-to-back mode (a retransmitted INVITE places a second call there).
* With session timers on, the dialog is updated with the daemon's own 200, so that its remote target becomes the daemon's own Contact (`C118_own_target`, and after every re-INVITE or UPDATE `C120_own_target`): a BYE or refresh goes to the daemon itself. No Session-Expires is ever too small (`C118_no_422`), the answer is always 1800 seconds (`C118_longer`), and a re-INVITE's own interval is ignored (`C120_interval_ignored`).
* An INVITE that cannot be accepted (no Contact, no CSeq) gets 603 and not 400 (`C118_declines`); the 603 of a daemon without calls is never sent, since the dispatcher answers 501 first.
* A CANCEL between the 100 and the 180 gets 200 and does nothing: the call is answered (`C119_too_early`). A CANCEL while it rings gets the INVITE 487, but its handler is not stopped: it sends 200 as well and stores the dialog (`C119_answered_anyway`). The key of pending INVITEs is joined with colons, so a CANCEL with another Call-ID and tag can end the call (`C119_collision`).
* A BYE or INFO with an old CSeq is accepted (`C120_old_bye`). An INVITE with a To tag of no dialog is a new call and not 481 (`C120_reinvite_unknown`). When a session expires the dialog is dropped and no BYE is sent (`C120_expired`); a BYE does not stop the session timer.
* Replaces is checked but nothing is replaced: the named call stays and gets no BYE (`C121_nothing_replaced`), early-only is ignored. Without authentication it is enough to write the name of one of the two users, for example the daemon's own, into From (`C121_anyone`).
* The authentication limiter (burst 3, one per 30 s) counts every request, also those with the right credentials: after a challenged and accepted INVITE and a challenged BYE, the BYE with credentials gets 503 and the call cannot be ended (`C122_hangup_refused`). An error of the verification, such as an unknown user or a missing parameter, is logged and the request never answered, which also tells known from unknown user names (`C122_unknown_user_ignored`). CANCEL needs no credentials and may come from any address (`C122_cancel_from_elsewhere`).
* sip-core's offer/answer engine goes through a `HashMap` of the offered formats: their order in the answer differs from run to run and the offerer's preference is lost (`C123_order_counterexample`). A payload type with an `rtpmap` attribute that is not among the formats is answered (`C123_unlisted_counterexample`), and so is a stream that the offerer disabled with port 0 (`C123_disabled_answered`). The session's own direction is ignored (`C123_session_level_ignored`), every address is declared IP4 (`C123_ip4_only`), base port 0 makes taken streams look refused, and the engine panics when `port + 2` exceeds 65535 though the port itself is free (`C123_panic_counterexample`).
* Resume after hold makes a sendonly stream sendrecv and an inactive one recvonly (`C124_resume_counterexample`); a session-level direction is left as it is, so such a session is never resumed (`C124_session_direction_counterexample`).
* A mandatory precondition of an unknown kind is dropped from the answer instead of being refused (`C125_unknown_kind_dropped`).
* The daemon as a proxy: when its own Route is removed, the next Route is not followed (`C126_route_skipped`). The loop check compares the host of a Via, without its port, with the host text of the local URI, with its port: with a port it finds nothing, and a request for the proxy itself goes round as often as Max-Forwards says (`C126_circulates`). Errors while passing on are only logged: no 482, and a request for a host name gets no answer (`C126_loop_silent`, `C126_name_dropped`).
* An INVITE ignores Route: a re-INVITE for the callee's contact gets 404 (`C127_reinvite_lost`). The credential for the proxy is passed on (`C127_credential_leaks`), a retransmission becomes a second INVITE (`C127_twice`), and a contact with a host name leaves the caller with 100 for ever (`C127_hangs`). 404 and 483 copy all headers and have no To tag (`C127_not_found`).
* Responses: after one final response the way back is forgotten, so that retransmitted 200s are lost (`C128_once`); 100 is passed back (`C128_trying`); the branch is a hash of headers, so whoever repeats them takes over the responses (`C128_takeover`).
* A CANCEL or ACK never matches the INVITE passed on, because the branches are made in two ways and the Request-URI is not that of the contact (`C129_unmatched`, `C129_uri`); the CANCEL for a name is dropped (`C129_cancel_dropped`). A call through the proxy cannot be cancelled, and a refused one is never acknowledged.
* A SIP URI is cut at the first `;` or `?` before the `@` is looked for, so that a user part with one of them, which RFC 3261 allows, is taken for the host: `sip:alice;day=tuesday@atlanta.com`, an example of the RFC, is a URI without a user and with the host `alice` (`C130_user_cut`, `C130_rfc_example`). After the bracket of an IPv6 host anything may follow and is ignored (`C130_after_bracket`); repeated parameters are accepted, the last counts, and headers without `=` are dropped (`C130_repeated`); `SIP:` in upper case is not a SIP URI for `Uri::parse` (`C130_scheme_case`).
* A reliable provisional response may have the status 100, which RFC 3262 forbids (`C87_reliable_trying`).
* Capabilities: values that can be added are lost when the set is written as parameters and read: a token that looks like a number becomes a number, a list under a tag that is not read as a list a string, an empty list a flag, the flag `false` disappears, and the token `nan` makes the whole set unreadable (`C131_lost`).
* Caller preferences: contacts without features are not immune to Accept-Contact, against RFC 3841 and the comment on the function (`C132_not_immune`); the `q` of an Accept-Contact is never used (`C132_q_unused`).
* Replaces: `ReplacesHeader::new` checks the tags for control characters only; a tag with a semicolon becomes parameters of the header that is written, for instance `early-only` (`C134_injected`). The comment on the type says that all fields are validated to prevent injection.
* Security agreement: `SecurityVerifyHeader::matches` compares the name of one mechanism and not the list that the server sent, so that it does not detect the bidding-down attack RFC 3329 is about (`C135_bidding_down`); the best match is by the product of the preferences, not by the server's (`C135_not_server_choice`); names such as `ipsec-3gpp` are compared with regard to case (`C135_case`); a value with a semicolon is written as it is and changes the preference (`C136_injected`).
* Capture: the scanner for the Call-ID wants the colon right after the name; the parser allows blanks before it, so that such a message is captured without a correlation (`C137_spaced`).
* Reason: the text is written without escapes and split at every semicolon, also inside quotes. Words with a semicolon are cut there (`C138_semicolon`), a backslash is lost (`C138_backslash`), and a value that itself is in quotes loses them (`C138_quotes`). Two reasons in one header are taken for one with an unreadable cause (`C138_two_reasons`).
* Message summaries: the descriptions of two messages are written without the blank line that separates them, and are read as one message with mixed fields (`C139_two_headers`). `total_new` adds numbers of 32 bits without a check: a NOTIFY from the network can make it overflow, which panics in debug builds (`C139_overflow`).
* A URI with the scheme in upper case (`SIP:a@h?Route=evil`) is taken by `Uri::parse` for a URI of another kind, so `without_uri_headers`, which is there to keep header fields out of requests, leaves its headers in (`C140_upper_case_keeps_headers`).
* `ResourcePriorityValue::new` accepts namespaces with commas and dots: the namespace `dsn.flash-override,ets` is written as two values, of which the first is the highest priority of another network (`C141_resource_injection`), `a.b` is read back as the namespace `a` (`C141_resource_dot`); ten accepted values can be too long to be read (`C141_resource_long`).
* `parse_allow_header` and `parse_supported_header` give an empty list when one element is empty or not a token, so `Supported: 100rel, timer,` supports nothing (`C142_one_bad`); an empty list, which RFC 3261 allows, is not read back (`C142_empty`).
* `parse_date_header` gives the present time for a text that is no date (`C143_bad_is_now`); `is_past` and `is_future` answer yes or nothing, never no (`C143_never_no`); 31 Feb, any zone and words after it are accepted (`C143_lax`).
* `SipFrag::headers_mut` can break the agreement of headers and body (`C144_headers_mut`); a fragment with a body that is not UTF-8 is accepted, and `to_string` then panics (`C144_panic`).
* `parse_event_header` and `parse_subscription_state` refuse white space before `=` and quoted values that are no tokens, and accept a quote on one side only (`C145_form`).
* A media type with a semicolon in a quoted parameter (`boundary="a;b"`) can be made and is written, but the text is cut at the semicolon and refused (`C146_semicolon`).
* `SipVersion::parse` accepts zeros in front of the numbers, as in `SIP/02.00` (`C147_zeros`).
* `SubjectHeader` refuses text outside ASCII, which RFC 3261 allows (`C148_utf8`).
