# Design

A formal model, in Lean 4, of `danomagnum/gologix` (source in /repo), and proofs of the properties listed
in `properties.jsonl`.  `MANIFEST.json` says which theorems settle which property and how far.

## Layout

* `lean/Verif/Base/…`   bytes, little-endian integers, the result type (`ok` / `err` / `panic`), texts.
* `lean/Verif/Model/…`  the model, one file per area of the code; every definition cites file and lines.
* `lean/Verif/Spec/…`   specifications, written from the published formats and without the model's helpers.
* `lean/Verif/Lemmas/…` helper lemmas.
* `lean/Verif/Props/…`  the property theorems (`Cnn_…`), with concrete non-trivial `example`s beside them.
* `tools/claims.py`     the claims; `tools/manifest.py` writes `MANIFEST.json` from them.
* `tools/axioms.py`     writes `AXIOMS.md`.
* `seeded/LOG.jsonl`    edits of the model that imitate bugs, and the theorems that rejected them.
  Edits in `seeded/bugs.py` without a line in the log were written but not run: `list-half`, `half-status`, `half-string`,
  `several-answered`, `bits-list-index`, `bits-list-whole`, `ioi-bracket-error`, `ioi-index-error`.

A theorem with suffix `_partial` proves a part of its property; its comment says what is missing.  Where
the code does not have the property, the part that is false is a theorem as well: it states, for all inputs
of some kind where possible, what happens instead.

## Conventions

* A byte is `BitVec 8`; a Go `uint16`/`uint32`/`uint64` on the wire is its little-endian byte list.
  Where Go converts with `uint16(x)`, `byte(x)` the model truncates explicitly.
* A Go `error` return is `Res.err`, a Go run-time panic is `Res.panic`; both are values, so
  "does not crash" is a theorem about the result.  Of an error only its kind is kept (`eof`,
  `unexpectedEof`, `cipStatus n`, or `fail`), not its text.
* Floating point values are carried as bit patterns; no arithmetic is done on them in the code.
* A Go map is an association function or list; iteration order is a parameter where it matters.
* Goroutines are state machines with explicit atomic steps; a schedule is arbitrary.
* A loop that need not end runs on fuel and gives `none` when the fuel is used up; "never returns" is
  "`none` for all fuel".

## Trusted base

* Lean's kernel (4.33.0), and that the build ran it on these files.
* The axioms `propext`, `Classical.choice` and `Quot.sound`, and no others.  `AXIOMS.md` lists them for
  every theorem of the manifest.  There are no axioms of our own, no `sorry`, `native_decide` or `bv_decide`.
* That the model is what the code does.  The code was read, not run.  Assumed of its environment:
  * Go: the semantics of `encoding/binary`, `bytes.Buffer`, `strings`, `strconv`, `reflect` as documented;
    a 64-bit platform (`int` is 64 bits); sequentially consistent steps for the shared client (the races
    on unprotected fields are taken as atomic reads and writes); enough memory.
  * TCP: the bytes sent arrive in order or the read fails; `net.Conn.Write` writes all or fails.
  * `github.com/npat-efault/crc16` computes the CRC of its documented parameters (C42).
* That the specifications say what the published formats say: ODVA encapsulation and common packet format,
  CIP path segments, Logix 5000 Data Access (1756-PM020).  The data table service of C43–C45 is not published;
  its layout is that of the comments and requests of datatable.go.

## What is modelled

| Model | code |
|-------|------|
| Frame | sendreceive.go: headers, `sendMsg`, `recvData`, reading replies |
| Items | items.go: items, `readItems`, `serializeItems`, `Serialize`/`DeSerialize` of bytes |
| Segments | cip_definitions.go: class, instance, attribute, element segments and their readers |
| Ioi | ioi.go: `newIOI`, `parse_tag_name`, caching; server.go `getTagFromPath` |
| Values | types.go, the value cases of items.go: sizes, encoding, decoding, strings |
| Read | read.go: `Read`, `Read_single`, generic reads, arrays, fragments, bits |
| Multi | read.go `readList`, `ReadMulti`, `ReadMap`; partialread.go |
| Write | write.go, udt_write.go `WriteMap`, getattr.go, generic messages, reply checks of connect.go |
| Pack | pack.go `Pack`, `Unpack`, `Align`; TypeEncode: 411-522 |
| Lgx | lgxtypes: TIMER, COUNTER, CONTROL |
| Client | connect.go, disconnect.go, sendreceive.go, keep-alive as programs of goroutines |
| Sequence | client.go sequence numbers |
| ServerTables, StoreAlias | server_connections.go, server_router.go (values, and again with Go's slice sharing) |
| Server | server.go, server_connected.go, server_unconnected.go, server_listidentity.go: from bytes to replies |
| ServerIo | server_io.go, server_iochannel.go, class 1 parts of server.go |
| Path | path.go `ParsePath`, `PathBuilder` |
| Listing, TagList, Members | listidentity.go, listservices.go, listallprograms.go, listalltags.go, listsubtags.go, listmembers.go |
| DataTable | datatable.go, taggroup.go |
| L5x | l5x/types.go, l5x/load_tags.go `LoadTags` |
| Connect | connect.go `newForwardOpenLarge`, `newForwardOpenStandard`, `forwardOpen`, the requests of `Connect`; the request of `Disconnect` |
| UdtDict | udt_write.go `multi_to_dict`, `udt_to_dict`; write.go `WriteMulti` |
| DataVars | datatable.go: variables bound to tags, tagged structures, raw reads, creating and closing |
| ReadMulti | read.go `ReadMulti`, `ReadMap`: the fields collected, what is asked for them and how the values are stored |
| `getattr.go` (GetAttrList, GetControllerPropList), `canned/` | `Model/Controller`, `Model/FaultTable` (texts left out but for what a display says of itself) |
| `errors.go` multiError, `errors.Is` | `Model/Errors` |
| `connect.go` KeepAlive, `disconnect.go` KeepAliveCancel | `Model/KeepAlive` (which loops run, channels), `Model/Controller` (what a tick does) |
| `taggroup_readmap.go`, accessors of `taggroup.go` | `Model/TagGroupRead` (on `Model/ReadMulti`) |
| l5x/load_tags.go:100-318, schema.go:3982 (comment loaders) | Model/L5xComments |
| ReadStruct | read.go `Read` into structures, slices of structures, `any`; pack.go `ReadPacked` |
| UdtSize | listmembers.go `UDTDescriptor.Size` |
| ServeLoop | server.go `Serve`, `serveTCP`, the loop of `serveUDP` |
| `server.go:142-200`, `server_io.go`, `server_iochannel.go` over time | `Model/ServerIoRun.lean` | the loop over datagrams as a fold, each datagram with the connection table of that moment; a channel is what was received from it, who waits is an input of each step |
| Model/Settings.lean | client.go:150-179 `NewClient`, connect.go:70-170 `Connect` as a whole: defaults, dialing, logger; path.go:50-56 `CIPPort.Bytes` |
| `Model/Session` | a client and a server on one connection, connecting and calls: sendreceive.go:79-107, connect.go:70-170, read.go:159-636, write.go:221-315, server.go:209-246; several clients of one server, requests one at a time: server.go:115-132 |
| WriteAny | write.go: `Write` for any Go value, `write_single`, `write_udt`; types.go: `GoVarToCIPType` |
| `Model/ServerRace` | several connections at the same time: lookups and writes with the lock (server_router.go:97-209), replies encoded without it (server_connected.go:310-341); any schedule; reading one element is one step |
| `Model/Session` (leaving) | `disconnect`, `hangUp`, `dialed`, `World.arrive`, `World.leave`, `World.vanish`, `World.live`: disconnect.go:54-142 at both ends, the end of a handler server.go:198-246, a new one server.go:115-132 |
| `Model/SessionAsk` | `askIdentity`, `askServices`, `askAttribute`, `askGeneric`: listidentity.go:47-76, listservices.go:40-62, getattr.go:101-162 and 421-487 with a server at the other end |
| Props/SessionArrays | arrays of booleans and strings in a session: what goes wrong; booleans as bits of words |
| Model/ServerStruct | the reply to a read of a tag that holds a Go structure |
| PackOwn | Pack and Unpack of structures with members of the built-in types TIMER, COUNTER and CONTROL, and arrays of them |
| ReadOwn | Reading into built-in types, structures with members of them, and slices of both |
| `Model/WriteOwn` | writing TIMER, COUNTER and CONTROL, structures with them, pointers to and slices of them |
| Texts | `CIPStatus.String`, `CIPService.String`, `CIPType.String`, `CIPError.Error`, `CIPStatusError.Error`, the messages of failed calls |
| `Model/ClientTables` | The locks taken and the tables used by `newIOI`, `firmware`, `resolveTypeSize`, `ListAllTags`, `ListSubTags`, `ListMembers`, for goroutines under any schedule (`Spec/Shared`: a use lasts from one step of a goroutine to its next). What the tables hold is not modelled; an exchange takes and releases the connection's lock once. |
| `Model/SessionMulti` | `ReadMulti` and `ReadMap` of a client connected to a server of this library: the fields and requests of `Model/ReadMulti`, the exchanges of `Model/Session`. |
| `Model/SessionPut` | `WriteMap` and `WriteMulti` of a client connected to a server of this library: the map of `Model/UdtDict` in any order, its paths, the exchange of `Model/Session`. |
| `Model/SessionWatch` | `GetAttrList`, `GetControllerPropList`, `GetForces` and `KeepAlive` of a client connected to a server of this library; ticks come one after the other, `ListAllTags` is a parameter. |
| `Model/SessionGroup` | `ReadTagGroup` of a client connected to a server of this library. |
| `Model/SessionAuto` | `checkConnection` and what a client takes its connection for, with a server of this library: when it connects by itself, when it learns that the connection is lost. A dial succeeds. |

## What is not modelled

* Sockets, timers, deadlines, the ticker of cyclic I/O, UDP, DNS.  Time-outs are arbitrary failures.
* Log output; the texts of errors.
* XML reading (encoding/xml, l5x/schema.go); `strconv.ParseFloat` is a parameter.
* Memory use: a reply or request can ask for an allocation of up to 4 GiB (`make` of an announced length).
* vendors.go, device_type.go and other tables of names.
* `Packable`, `Unpackable` and `Serializable` values inside structures of `Pack` and `Unpack` (built-in types at
  the top are modelled in Lgx; `Pack` returns 0 and no error when `Serializable` fails).
* Accessors of `TagGroupResult`; arrays as fields of tagged structures of a data table.
* Non-ASCII letters in `ToLower` and non-ASCII space in `TrimSpace`.

## Plan per property

| id | how |
|----|-----|
| C01 | model of frame building and of frame reading over a byte stream; round-trip with arbitrary suffix |
| C02 | induction over the list of messages, from C01 |
| C03 | round-trip by induction over the item list |
| C04 | for all byte lists: result is an error or re-encoding the items gives the consumed prefix; no panic |
| C05 | round-trip of each segment codec with suffix |
| C06 | evenness by cases on widths; announced word count vs. bytes |
| C07 | decoder from the CIP segment table as specification; false for 32-bit elements: negation plus `_partial` |
| C08 | model of `newIOI` and `getTagFromPath`; round-trip for structured well-formed paths |
| C09 | injectivity via an independent decoder of request paths |
| C10 | memo table invariant by induction over lookups |
| C11 | grammar of segments as a specification; every output is in it |
| C12 | `getBit` against two's complement `testBit` |
| C13 | encode/decode per atomic type |
| C14 | bit unpacking against a pointwise specification |
| C15 | string layouts |
| C16–C18 | `Pack`/`Unpack` over an inductive type of shapes; induction over shapes |
| C19 | control-word codecs |
| C20 | fragment loop against an adversarial controller that cuts arbitrarily |
| C21–C24, C57 | multi-service request builder/parser and batching against a truthful sequence of replies |
| C25, C26, C54 | reply handling as total functions of the reply bytes |
| C27–C29, C60–C63 | interleaving state machines, invariants by induction on the schedule |
| C30 | modular arithmetic over the counter |
| C31 | refinement of the connection slice to a finite map |
| C32–C34 | refinement of the tag store and router to maps |
| C35 | the bytes of the client's write through `serveStep`, then those of its read, then the client's decoder |
| C36 | induction over the embedded requests against a relation that runs them one after the other on a store |
| C37 | a predicate on bytes (`hostile`) that is equivalent to a panic of the path reader, and no panic without it |
| C38 | a Hoare-style predicate on handlers: every new frame echoes context, session and service |
| C39, C65 | refinement of the open and close handlers to a finite set of connections |
| C40, C41 | grammar of routes; a fold over builder calls |
| C42 | CRC against polynomial division over GF(2) |
| C43–C45 | data table and tag groups; invariants over histories of add and remove |
| C46, C53, C66 | listing loops against a controller described by its tables |
| C47, C50 | bit arithmetic for all words |
| C48, C49, C67 | identity and services codecs |
| C51, C68 | project file conversions, against the numbers the texts denote |
| C52, C69 | cyclic I/O providers, with unpacking into an existing value |
| C55 | totality of `newIOI` outside the names that panic |
| C56 | composition of C13–C15, C20 with the reply forms |
| C58, C59 | the bytes of write requests against the published layout |
| C64 | the tag store on a heap of backing arrays |
| C70–C72 | the bytes of the client's requests through `serveStep`, and the reply through the client's reader |
| C73 | the map made of a structure is the list of its values with their tags; packet of the writes of a map |
| C74, C75 | the read loop with a store of variables, related to the one without; maps with distinct keys for tagged structures |
| C76 | from C21 for the batches; fields by their position in the list of tags, maps entry by entry |
| C77 | the reply written out around an arbitrary second item; functions that ignore a byte give the same result for any two values of it |
| C78 | `Props/ServerReply`: `Tells` (what a handler may send), framing for any input, addressing for connected requests; negations for write acknowledgements, unknown connections, long replies |
| C79 | `Props/ServerReply`, `Props/ServerTruth`: success implies done, failing reads and unknown services get an error status; negations for failing writes and the session after a failing read |
| C80 | `Props/ServerList`: reader of lists (`readListing`), sorting, instances; negations for the request's content and for gologix's own client |
| C81 | `Props/TypeDesc`: `Describes` as an inductive relation, mutual induction over types; negations for booleans around arrays, nameless types, empty arrays |
| C82 | bytes of the request and of the reply; induction over the ticks |
| C83 | bytes of the replies; the flags bit by bit; the table of descriptions checked as a whole, which covers every class and code |
| C84 | induction over nested errors |
| C85 | step relation of starts, ticks and cancellations; invariants |
| C86 | from C76 for maps, for every order of the map; accessors by cases |
| C87 | Spec/L5xComments: what an export says, as an inductive relation; the maps hold exactly that |
| C88 | places of scalars as in C17; a reader at bit `c` of the image, both directions by induction over shapes |
| C89 | the loop is a maximum; members whose counted size is their size |
| C90 | one event at a time; the state after any list of events in closed form |
| C91 | the first tag of a name splits the list |
| C92 | Crash freedom of listings, data tables, structures, slices, connecting: exact set of crashing replies (`Props/ReplyCrash`, `Spec/Crash`) |
| C93 | Run of `serveStep` on attribute requests; paths read with the published segment decoder; attributes in `Spec/ServerAttr`. |
| C94 | Run of `serveStep` on an Unconnected Send laid out in `Spec/ServerUcmm`; values as in C35; numbers by the ascending list of C80. |
| C95 | Run of `forwardOpen`/`startIO` up to the sender list; frame lemmas for all other requests; histories as in C39, the `Open` flags by an invariant over them. |
| C96 | The random source is a stream; `Draws`: every handler uses it from the front only, so two choices in a history are different positions. |
| C97 | Spec/TableAdd: `slotBytes` gives the bytes of a type, `ShownBy` the slot of a tag, `Added` a table with further tags. Each way of adding yields `Added` when all tags can be shown, and leaves the table alone when one cannot. |
| C98 | `Props/ServerIoRun.lean`: fold over datagrams from C52 (one datagram) and C16 (images); older messages replace newer ones |
| C99 | `Props/ServerIoRun.lean`: induction over events, `Gets` says which messages a channel gives; the first channel nobody waits at blocks the later ones |
| C100 | `Props/Udp.lean`: inverse of `readItems` (C92) for exactness, `unpackInto_safe` for crashes; used by C90 and C98 for the datagrams that concern others |
| C101 | An invariant of all handlers (class `Closed`, `Props/ServerKeys`); the conversions against the independent relations `Takes` and `HeldAs`. |
| C102 | the whole sequence of frames of `Connect`, by the characterization of grants of C72 |
| C103 | `Model/Settings` puts the settings in front of `connectWith` (C102); `C103_asks` reads them off the frames sent, `C103_keeps` says what the client is set to afterwards, `C103_new` what `NewClient` sets |
| C104 | `Props/Session`: frames of one side are requests of the other (`frame_asks`, `recv_framed`), one exchange at a time, then induction over the calls; the specification is a memory of named values (`Spec/Session`): whole tags, elements, arrays, several at once; `ReadList` (`C104_list_partial`) by induction over its requests |
| C105 | a type of all Go values by the cases the code distinguishes; the request against a relation between values and announced type, count and bytes |
| C106 | `Props/Session`: a call leaves connections and router as they are (`keeps_unit`), so the connections of the others stay joined; a new connection is entered behind the others (`added_keeps`) |
| C107 | `Props/ServerRace`: over the heap of `Model/StoreAlias`; while a reply is encoded, the array belongs to the tag still or to no tag any more (`Watched`) |
| C108 | One exchange of the session model per request of the listing model: the answer of the server to a request of service 0x55 is computed once (`list_exchanged`), then read by the client's loops. |
| C109 | `Props/Comings`: closing takes the first entry with the serial number and moves the last into its place (`closed_first`); with distinct serial numbers and identifiers (`Apart`) this is the client's own and all others are found as before (`closed_apart`); `Enrolled` is kept by arriving, calls and leaving |
| C110 | `Props/SessionAsk`: the exchanges of `Props/Session` with the server's answers of C48, C67, C93 and the client's parsers; `generic_exchanged` for any service that is answered with `sendUnitData` |
| C111 | The packer's invariant of C17 is kept by a member that writes itself; the reader of C88 finds the flags and numbers wherever they are placed; arrays go to encoding/binary and are shown wrong |
| C112 | texts of all 256 values as numbers without repetition, a reader of hexadecimal numbers in the spec |
| C113 | `Props/ClientTables`: `Keeps` is what a goroutine may do with the locks it holds, in the order cache, connection; `inv_step` keeps it for all goroutines at each step; no deadlock since the holder of the inner lock can go on; clashes by running the writer alone to its write and then the other to its use (`alone`, `clash_of`). |
| C114 | `Props/SessionMulti`: the requests made for the fields are answerable (`answerable_map`), so `list_over` and `C104_list_partial` give their values, which `storeFields_plain` and `mapValue_put` (C76) put in place; there and back through the memory after `WriteMap` (`stores_seen`). |
| C115 | `Props/SessionPut`: the map of a plain structure is its tagged values (C73), the paths are made one for one (`putPaths_all`), the packet stores them in the order of visit (`put_over` from C104); any order leaves the same memory (`perm_of_map`, `stores_seen`); back with `C114_fields_partial`. |
| C116 | `Props/SessionWatch`: what the server answers to a service it does not have (`refused_exchanged`), read by `GetAttrList` (`listReply_refused`); induction over the ticks; a tick that is answered is a `watchTick` of C82. |
| C117 | `Props/SessionGroup`: the map of a group is one entry per definition (`puts_fresh`), what is asked for is what C86 says (`zero_asked`), the map is filled as in C114 (`map_over`) in any order (`perm_of_map`). |
| C118 | `Props/SessionAuto`: a call that succeeds was answered (`ok_answered`), so a joined client stays connected (`calls_joined`, from C104); a client that is not connected is joined by `C104_connects_partial`; `missing_exchanged` and `down_call` for the calls that are lost. |
| C119 | `Props/SessionBits`: the path of `tag.n` is the path of `tag` (`C12_bit_path_partial`), so the request is the one of C104 and the reply is decoded by `C12_bit_of_value_partial`, `C12_sint_refused`, `C12_out_of_range_silent`. |
| C120 | `Props/SessionTypes`: `write_served` and `refused_served` (from `write_step_refused`) with what C101 says of the tags (`convert_typed`, `convertAll_typed`). |
| C119, lists | `Props/SessionBitList`: a list with bits sends what the list of the whole numbers sends (`Half`, `halves_entries`), and makes bits of what that list makes numbers of (`halves_reply`); the rest is C104. |
| C121 | `Props/SessionHalf`: `all_stored` for the values before the refused one, then `packet_cut` (`Props/SessionAbsent`), from `served_append_stops` and `multiOne_write_err`. |

## Disagreements

Where the code does not have a property.  Each is a theorem; line numbers are of /repo.

| id | theorem | what the code does |
|----|---------|--------------------|
| C06 | `C06_element_length_wrong` | `CIPElement.Len` counts 65535 as a 32-bit element, `Bytes` as a 16-bit one |
| C07 | `C07_element_32bit_wrong` | 32-bit elements are sent with the code of 16-bit ones (cip_definitions.go:115) |
| C08 | `C08_count_eaten`, `C08_index32_lost` | the server ignores the length of a path and reads on while the next byte is 0x28, 0x29 or 0x91; it does not know 32-bit indices |
| C11 | `C11_long_name_wrong` | names over 255 bytes get a wrong length byte (outside the claim) |
| C12 | `C12_sint_refused`, `C12_out_of_range_silent`, `C12_bit_number_limit`, `C12_high_bit_member` | bits of SINT are refused, bit numbers outside the width read false, bits 32–63 cannot be named |
| C13 | `C13_ulint_unreadable` | ULINT is not among the types a reply can be decoded with |
| C14 | `C14_empty_panics` | reading into an empty `[]bool` panics |
| C15 | `C15_long_string_overclaims` | a string over 84 bytes is cut but its length field is not |
| C17 | `C17_array_of_structs_unaligned` | elements of arrays of structures are written without padding |
| C17 | `C17_array_of_flags` | the booleans of structures in an array take a byte each |
| C88 | `C88_padded_array_wrong` | arrays of padded structures are read as if there were no padding, so that the values are made of padding and of neighbouring values, without an error |
| C18 | `C18_nested_array_not_packed` | arrays of arrays of booleans take a byte each |
| C19 | `C19_timer_drops_bits` | TIMER loses FS, LS, OV and ER |
| C20 | `C20_struct_refused` | fragmented structures are refused |
| C21 | `C21_untyped_struct_overruns`, `C21_sint_bit_nil` | a structure without a Go type swallows the rest; a SINT bit becomes nil |
| C22 | `C22_oversized_tag_loops`, `C22_empty_reply` | a tag too large for a request is tried for ever |
| C23 | `C23_odd_size_exceeded`, `C23_readMulti_exceeds`, `C23_reply_exceeds` | headers are not counted |
| C25 | `C25_getAttrSingle_ignores`, `C54_rejection_ignored` | `GetAttrSingle` and `WriteMap` do not look at the status |
| C26 | `C26_*_crash` | replies that crash the client: no items, offsets beyond the packet, strings over 82, wrong types in `ReadMulti` |
| C27 | `C27_disconnect_refused_while_connecting` | `Disconnect` during `Connect` is refused and the client ends connected |
| C30 | `C30_two_generators` | `GetAttrList` uses another counter, so counts repeat |
| C32 | `C32_narrowed` | arrays over arrays of another type are converted |
| C33 | `C33_negative_count_panics` | counts of 32768 and more are negative and panic |
| C35 | `C35_bools_refused` … `C35_forty_unreadable` | six kinds of writes that cannot be read back |
| C36 | `C36_failing_request` … `C36_fragmented_write_misread` | one failing request leaves all unanswered; STRING writes are refused; the offset of a fragmented write is taken for the value |
| C37 | `C37_crash_*` | requests that crash the server; those of `Props/ServerCrashAny` crash any server on any open connection, or without one |
| C38 | `C38_get_attr_single_code`, `C38_rr_connected_item`, `C38_session_not_checked`, `C38_list_services_command` | wrong service code, session not checked |
| C39 | `C39_close_not_acknowledged`, `C39_serials_collide` | a close request is not answered; equal serial numbers collide |
| C40 | `C40_dot_first_panics`, `C40_dot_accepted` | addresses in routes: panic as the first part, no check of what has a dot; no pad byte after an address of odd length |
| C41 | `C41_address_panics`, `C41_index_dropped` | an address first panics, names with an index lose it |
| C43 | `C43_remove_add_duplicates`, `C43_wraps` | positions are the number of tags, so they repeat after a removal |
| C44 | `C44_ulint_unreadable`, `C44_long_text_cut`, `C44_many_tags_miscounted` | see the claims; also, `AddTags` of nothing sends an empty batch whose header is not skipped, and removing an expanded element makes `ReadAllTyped` fail |
| C45 | `C45_unindexed_repeats`, `C45_argument_filled`, `C45_word_arrays_as_dint`, `C45_refused_group_blocks_reads` | expansion of groups |
| C46 | `C46_one_entry_pages_never_return`, `C46_system_page_never_returns`, `C46_error_status_accepted`, `C46_not_user_recorded` | listing loops; statuses other than 6 are taken for 0 |
| C51 | `C51_upper_half_saturates`, `C51_unsigned_unknown` | DWORD etc. parsed as signed; unsigned types become texts; REAL becomes float64 |
| C52 | `C52_empty_field_accepted`, `C52_cut_datagram_accepted`, `C52_channel_skipped` | the 4096-byte buffer is not cut to the received length; a channel nobody waits at ends the loop |
| C53 | `C53_cut_header_accepted` | a cut header ends the list without an error |
| C54 | `C54_slice_announced_as_one`, `C54_rejection_ignored` | `WriteMap` |
| C55 | `C55_unbalanced_bracket_panics` | "a]" panics |
| C56 | `C56_one_element_refused`, `C56_empty_slice_panics` | slices of length 1 and 0 |
| C57 | `C57_missing_values_accepted`, `C57_values_shift` | fewer embedded replies than requests are accepted |
| C58 | `C58_bool_slice_type`, `C58_count_wraps` | `[]bool` is sent as a structure; counts wrap |
| C59 | `C59_bit_write_ignores_bit` | the bit number of a write is dropped |
| C61 | `C61_late_reply_to_other_goroutine` | between a time-out and the `Disconnect` another goroutine can read the late reply |
| C62 | `C62_nil_connection_crash`, `C62_double_close_crash` | a failed dial leaves a nil connection; the cancel channel can be closed twice |
| C63 | `C63_failed_connect_leaks` | a `Connect` that fails after dialling does not close the socket (`C63_left_open`: these are the only ones left open) |
| C64 | `C64_two_tags_share`, `C64_result_changes_later` | slices are shared with the application and with results |
| C65 | `C65_close_by_anyone`, `C65_stranger_closes` | only the serial number of a close request is looked at |
| C66 | `C66_name_cut`, `C66_semicolon_panics`, `C66_length_wraps`, `C66_cut_name_accepted`, `C66_cycle_never_returns` | listmembers.go:252-255 drops a character after splitting at ";"; statuses ignored; recursion without end |
| C67 | `C67_unreadable` | the announced length of the services item is 10, it has 20 bytes |
| C68 | `C68_controller_composites_dropped`, `C68_two_dimensions_fail`, `C68_struct_texts` | l5x/load_tags.go |
| C69 | `C69_partly_written` | a payload that ends inside the structure overwrites the fields before |
| C70 | `C70_route_cut`, `C70_no_route`, `C70_odd_route`, `C70_ids_collide` | server.go:632, 726 keep two bytes of the path; path lengths are rounded down to words; identifiers are chosen by the clients |
| C71 | `C71_not_acknowledged`, `C71_first_left_open` | server.go:546-565 sends nothing; the serial number of a refused large request is forgotten |
| C73 | `C73_arrays_dropped`, `C73_untagged`, `C73_crash`, `C73_strings_refused`, `C73_not_split` | `WriteMulti` leaves out arrays silently, merges fields without a tag, panics on fields that are not exported, refuses slices of strings, never splits |
| C74 | `C74_short_slice`, `C74_unindexed_slice`, `C74_rebound`, `C74_hidden_panics`, `C74_embedded_misbound`, `C74_partly_updated`, `C74_no_pointer`, `C74_composite` | the structure in the comment of `AddTaggedStruct`, used as written (its slice still empty), makes every later read fail |
| C75 | `C75_failed_close_forgets`, `C75_sync_after_close` | the instance stays in the controller, and closing again reports success |
| C76 | `C76_map_slice_changes`, `C76_slice_unreadable`, `C76_same_tag_twice`, `C76_embedded_misplaced` | slices in maps change their type, some slices cannot be read, values in the wrong field |
| C77 | `C77_echo_accepted`, `C77_sequence_ignored`, `C77_read_ignored`, `C77_write_ignored`, `C77_attributes_ignored`, `C77_multi_ignored` | service, response bit and sequence count of replies are mostly not looked at |
| C78 | server_connected.go: a write is acknowledged with the connection identifier of the handler (the connection opened last), not of the request's connection; a request for an unknown connection is answered with connection 0 and sequence 0; the header length is 16 bits | `C78_write_misaddressed`, `C78_unknown_connection`, `C78_long_reply` |
| C79 | server_connected.go: a failing write is not answered; any failing request ends the session | `C79_write_failed_silent`, `C79_read_failed` |
| C80 | server.go:466: the list ignores the start instance and the attributes of the request; its entries lack the array sizes `ListAllTags` asks for and reads | `C80_request_ignored`, `C80_client_cannot_read`, `C80_client_wrong_size` |
| C81 | pack.go:442-452: an array does not end a run of booleans (`continue` skips `bitpos = 0`), so that a boolean after it is missing from the description; arrays of booleans and of arrays have an empty name; `arr.Index(0)` panics for an empty array of structures | `C81_bool_hidden`, `C81_nameless`, `C81_crash` |
| C83 | `C83_exist_is_enabled` | `Exist` looks at the bit of `Enabled` |
| C83 | `C83_flag_of_other_class` | bits of the fault types but power-up are one too low: a watchdog fault is shown as a memory fault |
| C83 | `C83_misfiled` | fault 17:34 is unknown, 17:32 has its description |
| C85 | `C85_documented_use_crashes`, `C85_twice_crashes` | `KeepAliveCancel` closes a nil or closed channel |
| C85 | `C85_never_again` | cancelling turns `KeepAliveAutoStart` off for good, `KeepAlive` then returns at once |
| C86 | `C86_bool_array` | an array of BOOL in a group is asked for as one structure |
| C86 | `C86_word_array` | an array of WORD in a group is asked for as DINT |
| C86 | `C86_same_name` | of definitions that come to the same name only the last is read |
| C87 | Tags of programs, comments on parts of a tag and descriptions of tags without data are not returned by LoadTagComments. | C87_program_tags_dropped, C87_tag_parts_dropped, C87_alias_dropped |
| C87 | The description of a type is filed under the member `tag.TypeName`; quotes at the ends of texts are lost; exports with a type without members crash the loader. | C87_type_as_member, C87_quotes_lost, C87_no_members_panics |
| C88 | `C88_partly_written`, `C88_count_wraps`, `C88_packed_panics`, `C88_packed_never`, `C88_other_pointer_panics`, `C88_anys_panic`, `C88_anys_twice`, `C88_by_value_silent` | `ReadPacked` reads into a `*[]byte`, which `Unpack` does not handle (`NumField` of a number panics), so it never works; other destinations that are no structures panic too; a structure passed by value is silently not read |
| C89 | `C89_array_cut`, `C89_nested_by_number`, `C89_comment_wrong`, `C89_padding_left_out` | `Size` counts one element of an array and, for nested structures, the size of the elementary type whose code is the low byte of the template number; the comment in the code supposes the result right when the last field is elementary, which is not so |
| C90 | `C90_tcp_left_open`, `C90_never_returns`, `C90_spins` | both loops only log errors and go on, so the error channel of `Serve` is never written to and closing a listener makes its loop spin; a failing UDP port leaves the TCP listener open |
| C91 | `C91_pending_cannot_go` | `RemoveTag` of a tag that is only registered locally sends a remove request with a position the controller has not assigned |
| C92 | A reply with fewer than two items crashes ListAllPrograms, ListAllTags, ListSubTags, ListMembers, data table and controller requests and Connect | `C92_crash_iff`, `C92_open_partial` |
| C93 | The name is sent on a connection as a 32-bit length and 84 characters; replies carry service 0xD2; what is absent gets no answer and ends the session; outside a connection every attribute has a type code in front. | `C93_name`, `C93_single_partial`, `C93_absent_silent`, `C93_unconnected_typed` |
| C94 | Outside a connection: what fails gets no answer and ends the session; the pad byte of an odd message and the last two bytes of a STRING are taken for the length of the route, so single BOOLs, SINTs and strings cannot be written; tags from number 256 on cannot be addressed; a value read by number cannot be given back, a string of one character then becomes 82 zeros although confirmed. | `C94_read_failed_silent`, `C94_write_failed_silent`, `C94_write_odd_silent`, `C94_write_string_silent`, `C94_number_long`, `C94_give_back_refused`, `C94_give_back_corrupts` |
| C95 | `C95_large_no_data`, `C95_no_endpoint`, `C95_zero_interval` | server.go:619-702 ignores the trigger; server.go:774-791 acknowledges and registers before the path is looked up; `time.NewTicker(0)` panics |
| C96 | `C96_taken_accepted` | server.go:639-650, 731-740: the target should choose the identifier of messages to it; here the client's is taken unchecked and the older connection receives the messages |
| C97 | A structure of 65536 bytes or more gets a slot with the size modulo 65536; a TIME_OF_DAY gets 6 bytes instead of 4 and a DATE_AND_TIME is refused; names that crash `newIOI` crash adding. | `C97_large_structure`, `C97_times`, `C97_crash` |
| C87 | A bit behind other members, beyond the 64th, or of a type whose name ends in a digit is filed under a wrong position (load_tags.go:274-305, which says so itself for the first). | `C87_bits_shifted`, `C87_bits_type_digit` |
| C68 | An array of a program announced with a negative size, or one beyond 2^44, crashes loading. | `C68_array_size` |
| C98 | the number of an output message is not compared with that of the one before, so a late or repeated datagram sets the outputs back; the run/idle header is not looked at either | `C98_older_replaces`, `C98_idle_taken` |
| C99 | `IOWrite` returns at the first channel nobody waits at, so the channels opened later get nothing | `C99_first_blocks` |
| C76 | `ReadMap` and `ReadMulti` of a tag that is a structure into a number report no error; the number is made of the first bytes of the structure | `C76_structure_as_number` |
| C101 | A write of one value to the name of an array replaces the whole array by the value; a controller writes the first element | `C101_replaced` |
| C102 | `C102_refusal_ignored` | `registerSession` does not look at the status: a refused session is used |
| C72 | `C72_long_status`, `C72_any_answer` | `StatusLen*2` is computed in a byte, so 128 words or more of additional status are not skipped; service and serial number of the answer are not compared |
| C103 | `C103_vendor_left_out`, `C103_long_interval`, `C103_no_timeout`, `C103_no_logger` | `Connect` defaults `Controller.VendorId`, but the messages contain `Client.VendorId`; intervals from 2^32 µs on are cut to 32 bits; `SocketTimeout` 0 (documented as none, client.go:80) becomes 10 s; without a logger `Connect` panics although it tests for one at connect.go:89 |
| C104 | `C104_missing_ends`, `C104_map_string_ends`, `C104_map_array`, `C104_no_attributes` | a read of a tag the server does not have is answered with a reply without data, for which the client reports a short reply instead of the status (server_connected.go:309-313, read.go:453-457); the server then closes the connection, so all later calls fail. A string in `WriteMap` ends the connection (the server takes no STRING in a packet, server_connected.go:188-224), and a slice is announced as one element (udt_write.go:171-174), so the server replaces the array by its first value and the client reports success. The server has no GetAttributeList, so the keep-alive of the client ends at once (connect.go:208-216) |
| C105 | `C105_array_as_structure`, `C105_named_as_structure`, `C105_struct_pointer`, `C105_struct_slice`, `C105_bool_slice` | values of types `GoVarToCIPType` does not list are sent as 0xA0, 0x00 (a structure without a handle) with the raw bytes; an array is announced as one element |
| C105 | `C105_crash` | nil and nil pointers to supported types crash the caller of `Write` |
| C106 | `C106_same_instant` | the connection identifier a client draws is the time in milliseconds (connect.go:113, 376, 455), and the server takes it without looking whether it is in use (server.go:645-650, 685-692): a client that connects in the same millisecond as another is connected, but works with the tags of the other's route |
| C107 | `C107_torn` | `TagRead` returns a slice of the stored array (server_router.go:130, 136), which is encoded without the lock (server_connected.go:341), while `TagWrite` changes elements in place (line 181): a client can be sent an array that the tag never held |
| C108 | C108_never_lists | The server takes every request of service 0x55 for one of its tags. `ListAllTags` begins with the programs (class 0x68), reads the first tag as the entry of a program, finds a name of at least 65536 bytes and gives up with an error that is no status, so there is no fallback. |
| C109 | `C109_closes_another`, `serial_repeats` | the serial number of a connection is the low 16 bits of the time in milliseconds (connect.go:113, 350, 429), and the server closes the first connection with that number without looking at vendor and originator (server.go:546-565, server_connections.go:65-82): of two clients that connect 65536 ms apart, when the second disconnects the first loses its connection |
| C109 | `C109_vanished`, `C109_vanishes`, `C109_lives_partial` | when the socket of a client breaks the server only closes it (server.go:204-207): the client's connection stays in the table for ever, no timeout removes it |
| C110 | `C110_services`, `C110_name`, `C110_absent_ends` | the list of services cannot be read (C67); the name comes as a STRING of 88 bytes; a request for one attribute that does not exist is not answered and the server closes the connection (server_connected.go:521-589, server.go:209-246), so that the session ends |
| C104 | `C104_bools_end`, `C104_strings_crash` | a slice of booleans is written as a structure, which the server neither answers nor survives; for an array of strings the server repeats type and handle before each, and the client takes these for a length and crashes |
| C104 | `C104_structure_cut`, `C104_structure_unread` | server_connected.go:337 sends a structure with 0xA0, 0x00 and no handle; the client takes the first two bytes of the fields for it |
| C111 | `C111_array_no_image`, `C111_array_short` | an array of built-in types in a structure is given to encoding/binary, which does not know their Pack and Unpack methods: 13 to 16 bytes each without a control word, counted as 16; the controller's 12 bytes each are too short to be read |
| C111 | `C111_pointer_wrong`, `C111_written_slice_wrong` | pointers to and slices of built-in types and structures with them are written without a handle, as the bytes of the Go fields |
| C112 | `C112_lword_wrong` | LWORD is printed `0xC9 - LWORD`, ULINT `0xc9 - Unknown` |
| C112 | `C112_error_same` | code and extended code are printed without anything between them |
| C112 | `C112_generic_expected_wrong`, `C112_service_shown_wrong` | `%X` of a value with a `String` method prints its text in hexadecimal: `expected 0x4F4B (OK)` |
| C112 | `C112_generic_cut`, `C112_reads_cut` | a status of 16 or 32 bits is cut to 8 before it is printed; 0x100 is reported as OK |
| C113 | `C113_listing_clashes`, `C113_listings_clash`, `C113_members_clash`, `C113_types_clash`, `C113_listing_members_clash` | `ListAllTags`, `ListSubTags` and `ListMembers` write KnownTags, KnownPrograms, KnownTypes and KnownTypesByID without a lock, while `newIOI` (firmware above 20), data table buffers and other listings read them: Go ends the program with "concurrent map read and map write" |
| C114 | `C114_type_crash`, `C114_one_element_crash`, `C114_missing_ends` | `ReadMulti` panics when the server's tag has another type than the field, and for slices of one element; one missing name fails the whole `ReadMap` and the server closes the connection |
| C115 | `C115_slice_cut`, `C115_slice_first`, `C115_string_ends`, `C115_type_changes` | `WriteMap` always sends the element count 1, so a slice replaces the server's array by its first element and success is reported; a string in the packet ends the connection; the type of the server's tag is not compared with that of the value |
| C116 | `C116_ends_at_once` | the server does not have the service the keep-alive uses (0x03): the keep-alive returns after the first request, and a connection to a server of this library is not kept alive |
| C117 | `C117_short_ends`, `C117_other_type` | a group with one array longer than the server's is not read at all and the server closes the connection; a tag of another type than defined is given back in the server's type without an error |
| C118 | `C118_map_not_checked`, `C118_missing_costs_next` | `WriteMap` does not call `checkConnection`: a client that never was connected crashes, one whose connection was lost does not connect again; after a read of a missing tag the server closes the connection and the next call of the client is lost, `AutoConnect` or not |
| C119 | `C119_sint_refused`, `C119_several_exact`, `C119_beyond`, `C119_write_replaces` | a bit of a SINT of a server cannot be read, and in a list it is nil without an error; a bit outside the number reads as false; writing bit `n` of a tag succeeds and replaces the whole number by a boolean |
| C120 | `C120_refused_partial`, `C120_array_refused_partial`, `C119_element_write_ends` | a write the server refuses is not answered, the server closes the connection and every later call of the client fails |
| C104, C114, C117 | `C104_several_absent_ends`, `C104_list_absent_ends`, `C114_map_missing_ends`, `C114_fields_missing_ends`, `C117_missing_ends` | one tag of a packet of reads that the server does not have, or has with too few elements, and the packet is not answered: no value reaches the client and the connection is lost |
| C121, C115 | `C121_half`, `C115_string_half` | values written at once are not written together: when one is refused, as every string is, the ones before it are written, the ones after it are not, the call is an error and the connection is lost |
| C121 | `C121_large_crash` | the offsets of a packet are signed at the server: a `WriteMap` of which a value begins beyond 32 KiB, which the client sends in one packet, crashes the server after the values before it are written |
| C55, C114, C115 | `C55_crash_exact`, `C55_never_refused`, `C114_name_crash`, `C115_name_crash` | exactly the names with a part that ends in `]` and has no `[` crash the caller, and with it the whole `ReadMap` or `WriteMap`; every other name, however malformed, is given a path: `newIOI` has no input for which it returns an error |
| C114, C115 | `C114_hidden_crash`, `C115_hidden_crash` | a tagged field that is not exported (`ReadMulti`), or any field that is not (`WriteMulti`), crashes the client |
| C61 | `C61_late_reply_alone` | the Disconnect after a timeout sends its Forward Close on the connection that timed out, and takes the late reply to the failed request for the reply to it |
| C23 | `C23_string_replies` | a string is counted as one byte of the reply: as many strings as fit in the request are asked for at once, whatever the size of the reply |

Other observations, without a theorem: `GetAttrList` and `GenericCIPMessage` return the item next to the
error; `Read_single` ignores the status of the encapsulation header; channels of the I/O provider
without a buffer drop values when nobody waits.
