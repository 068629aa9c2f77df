# Formal model of bgpkit-parser in Lean 4

## 1. What is here

* `properties.jsonl` – the semantic properties (C01 …).
* `lean/Verif/Model/*.lean` – the executable model: total, computable Lean functions, each with a comment citing
  the file and lines of `/repo/src` it models, and every simplification.
* `lean/Verif/Lemmas/*.lean` – helper lemmas only.
* `lean/Verif/Spec/*.lean` – small specifications, written without reference to the model's helpers.
* `lean/Verif/Props/*.lean` – the property theorems, with a non-vacuity `example` beside each, and the
  counterexamples where the code does not satisfy the full property.
* `MANIFEST.json` – property → theorem names.
* `seeded/LOG.jsonl` – the log of wrong programs tried against the theorems.

## 2. Modelling conventions

* Bytes are `UInt8`, byte strings `List UInt8`; u16/u32/u64 fields are `UInt16/UInt32/UInt64`, so statements range over
  exactly the Rust value space with no side conditions.
* A Rust parser on a `Bytes` cursor is a function `Bytes → Except Err (α × Bytes)` (value and remaining bytes);
  `&mut Bytes` becomes the returned rest.
* `Result` and `Option` stay data. A Rust panic (slice index, `split_to` beyond the end, `unreachable!`, `assert!`,
  arithmetic overflow in a debug build) is the explicit value `Err.panic`, so "does not panic" is a theorem.
* Error payload strings are not modelled; the variant of `ParserError` is, because the iterators branch on it.
* Logging (`warn!`) is not modelled. Validation warnings stored in the value are modelled.
* Loops are structural recursion, recursion on the length of the remaining input, or fuel that is proved sufficient.
* `HashMap` is modelled by association lists / functions; nothing observable in the modelled code depends on its order
  unless stated.
* f64 timestamps are kept as a number of microseconds (or seconds and microseconds) except in `Model/F64.lean`, which models
  the IEEE-754 binary64 operations that build and split them as exact rational arithmetic with round-to-nearest-even (C62).
* Network, decompression and wasm are not modelled. JSON documents are values of the type `Json`; their texts are modelled in `JsonText`, except the texts of real numbers.

## 3. Plan per property

| id | what is modelled | how it is proved |
|----|------------------|------------------|
| C01 | `try_parse_prefix`, `parse_nlri_list`, `NetworkPrefix::encode` | induction over the prefix list |
| C02 | the same | induction over the recursion of the list parser; panics are explicit values |
| C03 | the heuristic state of `parse_nlri_list` | induction; counterexample for lists with a /0 |
| C04 | `parse_as_path`/`encode_as_path` | induction over segments and ASNs |
| C05 | `encode_as_path` with its `check_max` errors | case analysis + induction: success iff in range |
| C06 | `merge_aspath_as4path` | induction against a flat-list specification |
| C07 | route iterators as the state machine they are | refinement to the list of all choices |
| C08 | `coalesce` as loop over (kept, rest) | loop invariant |
| C09 | `dedup*`, `has_equivalent_routing` | loop invariant |
| C10 | `PartialEq`/`Hash` of segments (sorted copies) | permutation reasoning |
| C11 | attribute framing, per-value codecs | induction over the list, one lemma per attribute |
| C12 | framing loop of `parse_attributes` | induction; non-interference statement |
| C13 | `Attributes` with its 4×u64 mask | invariant over operation histories |
| C14 | `check_mandatory_attributes` | decision logic |
| C15 | `parse_bgp_message` | case analysis, non-interference with trailing bytes |
| C16 | UPDATE codec | composition of C01, C11 |
| C17 | OPEN codec | induction over parameters |
| C18 | small messages; `BgpError` table | finite table by `decide +kernel` lifted to all bytes |
| C19 | `is_end_of_rib` | decision logic |
| C20 | MRT header codec | arithmetic |
| C21–C23 | `chunk_mrt_record` over a byte stream, raw iterator | strong induction on the stream length |
| C24 | reader with a schedule of short reads; carry-over/replay readers | refinement to the byte list; for recovery a simulation between two readers (`Lemmas/RecoverySim.lean`) |
| C25 | default, fallible iterators | induction on the stream |
| C26–C27 | peer index table codec and `add_peer` | induction, invariant over histories |
| C28–C31 | TABLE_DUMP, TABLE_DUMP_V2, BGP4MP, record codecs | composition |
| C32–C33 | `Elementor` | induction, explicit list specification |
| C34–C37 | filters, filtered iteration | decision logic; induction |
| C38–C39 | recovering iterator | invariant over its steps |
| C40–C41 | RTR codec | case analysis over PDU types |
| C42 | BMP framing and bodies | as C15 |
| C43 | FlowSpec codec | induction |
| C44 | MPLS label and labelled NLRI codec | induction |
| C45–C46 | capabilities, communities | per-type arithmetic, induction |
| C47 | RIB encoder state | invariant over histories |
| C48 | all modelled parsers | `≠ panic` for each, by composition; the same for the error that ends an iteration, which only reading a header may report (`Lemmas/NoEof.lean`, used in C23) |
| C54 | the section split of `parse_bgp_update_message` | composition of exact reader descriptions |
| C55 | AS path accessors | against the hop list |
| C56 | `parse_attribute_value`/`encode` per attribute | literal code and layout per kind |
| C57 | accessors, `validate_attribute_*`, default flags | decision tables |
| C58 | GEO_PEER_TABLE codec | exact reader description |
| C59 | legacy type 5 codec | exact reader description |
| C49–C52 | element conversion, ASN classes, roles, BMP→MRT | decision logic / induction |
| C53 | both dissectors, `find`, `find_all` | descriptions (`Spec/Dissect.lean`) that fix bytes and tree; every byte string has one; the tree of a description is nested by induction |
| C60 | `Filter::new` and its value parsers | grammar relation, both directions |
| C61 | RTR encoder and parser against literal RFC layouts | case analysis over PDU types |
| C62 | timestamp arithmetic in binary64 | error bound over rationals |
| C63 | BMP bodies against literal RFC 7854/8671/9069 layouts | exact reader descriptions |
| C64 | `RecoveringElemIterator` | refinement to the record recovery |
| C65 | updates encoder | composition of C16, C30, C20 over histories |
| C66 | route iterators | refinement to a list specification; relation to the full parser |
| C67 | diagnostic iterators | refinement to a description of the file, record by record (`Spec/Diagnostic.lean`) |
| C68 | byte ranges of findings | from the tree (C53) and the layout of the UPDATE, induction over the attributes with the number of earlier attributes of each type as invariant (`Spec/Spans.lean`) |
| C69 | update iterators | simulation against the records of default and fallible iteration, with the pending entries as state (`Spec/Updates.lean`); the elements follow from C32 and C33 |
| C70, C71 | text dumps: lines, column header, preamble, rows | refinement to a relation between the printed table and its rows (`Spec/TextDump.lean`), induction over the lines; the reader by the token view of C24 |
| C72 | format detection | the bytes looked at are put back: same tokens, then C24 |
| C73 | time from a file name | against a calendar given by its successor relation (`Spec/TextTime.lean`) |
| C74 | iteration of text dumps | from the token view of the reader; induction over the lines |
| C75, C76 | text and PSV lines of elements | against a relation between columns and their texts (`Spec/Display.lean`); splitting at separators is unique, so equal lines have equal fields; induction over lists, cases over kinds of communities; std's output of IPv6 addresses and floats as parameters (`ShowOk`) |
| C77 | AS numbers in text | decimal numerals, both directions |
| C78 | order of elements | comparison of octets as comparison of numbers |
| C79, C80 | JSON of paths and elements | documents as values of a type `Json`; the flat form by an invariant of the reader's fold (what was pushed has these entries, is flat and has no empty sequence); fields by a lemma on lookups in objects |
| C81 | RIS Live JSON | each reader characterised by a relation between value and document (`Spec/RisLive.lean`), composed to an equivalence for whole messages; induction over announcements |
| C82 | RIS Live raw messages | hexadecimal digits by a table; rounding error of doubles bounded below half a microsecond; C15, C16, C32; whether a message is read does not depend on the AS number length |
| C83 | RIS Live client messages | induction over the calls; lookups in objects |
| C84 | options of the command | expressions by a relation on texts (`Spec/Cli.lean`), then C34 and C60; induction over the expressions; each option by cases |
| C85 | output of the command | induction over what the iterators give, with the answers to writes as a function; then C25 and C37 |
| C86 | text of records | the text as a list of lines, titles with what is indented under them (`Spec/Render.lean`); groups of lines; injectivity of addresses and prefixes from C46 |
| C87 | streaming from JavaScript | the documented caller as a loop over arriving pieces; framed records at the front are unique (from C21), so the buffer always splits into records and a rest with nothing to parse; induction over the pieces |
| C88 | BMP for JavaScript | the document as entries of an object (`Spec/Wasm.lean`); a parsed message has a per-peer header exactly if it is about a peer |
| C89 | BGP and dissection for JavaScript | C53 for the tree, C21 for the octets taken |
| C90 | settings of a parser | a chain of calls as a list; the filters in effect as a relation on the list (`Spec/Settings.lean`); the iterators with effects erase to those of C25 and C37 |
| C91 | log lines and core dumps | the iterators of C25 and C37 with a log and a file added; an invariant over calls, and an exact account of a run over a file by induction over its records; reading a dump again by replaying the tokens that were taken |
| C92 | names of cached files | CRC-32 as remainder of polynomials over two elements; the register after n bits is the remainder, reversed; a step of the register is linear and injective |
| C93 | raw records with and without filters | the raw iterators with log and file; a simulation between the two nested loops and the one loop of the record iterator, by induction on what the reader still delivers |
| C94 | files of raw records | a file with a number of octets that still reach it; what a failed call leaves is a proper part of a record, which never reads as a record |
| C95 | link-state attributes through their methods | maps as association lists; induction over the TLVs and over the calls from the end |
| C96 | tunnel attributes through their methods | an exact description of what the parser accepts; values against the RFC formats |
| C97 | one elementor for many threads | steps of a pool of threads as a relation; an invariant that splits the records into taken and left, and a measure that every step lowers |
| C98 | JSON texts | a writer of JSON text (serde_json, compact and pretty) and, in the specification, a reader of JSON text; read after write is the identity, by mutual induction over values, items and entries; sorting of keys by `serde_json::Value` does not change what is read |
| C99 | Only IP routes become elements | case analysis of the MP attribute parser for all families and contents; the parser is shown not to depend on the SAFI |
| C100 | NLRI built by hand | constructors and accessors modelled; round trips by C11 for all routes, losses by showing that different NLRI are written alike |
| C101 | Files one behind the other | the lists of C21, C25, C37, C66 and C69 computed over the concatenation by induction over the records of the first file; independence of the elementor's state by induction over the second |
| C102 | The order of the attributes | the last attribute of a kind is the only one, so it is the same in every permutation; warnings by commuting two steps of the validation state |
| C103 | What is made of an input is bounded by its size | Counting lemmas by induction over the prefix list, the attribute cut of C12, the block layouts of C17-C20, then over the deliveries of a reader (C22, C37). |
| C104 | Values as keys: equality, order and hash | Doubles are bit patterns with their IEEE value as specification; strict monotonicity of the value in the bits by induction; then field by field. |
| C105 | What was read can be written and read again, and when not | For each attribute, what the reader returns is in the domain of the writer (inversion of the readers); the writer's output decodes to the same value (round trips of C11, C12, C18 to C21); for the exceptions the writer fails or what it writes decodes to something else; lists by induction, aligning what was written with what is read. |
| C106 | A file that was read can be written and read again, and when not | Case by case over the record types from the exact readings C26 to C30, C58, C59 and the rewriting theorems C105; a written TABLE_DUMP body is never taken for a short one; the frame is recovered from the delivered octets; files by induction over the records. |
| C107 | A BGP message gives the same elements whichever way it arrives | Each envelope has an exact reading (C30, C58, C52, C63, C82) in which the message is read by parse_bgp_message; bgp_to_elems commutes with setting time and peer, by going through its iterator step by step. |
| C108 | Announcements survive JSON exactly when their attributes have nothing JSON drops | One lemma per type that its reader inverts its writer, from the lemmas on objects and variants of C79/C80; the flags and the name tables by evaluation over all 256 octets and all entries. That the types hold of everything read (labels of 20 bits, prefix lengths, enum values, maps with distinct keys) is proved by going through every value parser, up to the iterators (C69, C106). |
| C109 | The JSON of every element that a file gives is read as that element | The readers invert the writers (C80, C108) with the path as C79 says; every element of a record that was read has a prefix no longer than its address, from the types proved in C108 and the elements of each update (C69); texts by C98, whose documents are shown to have distinct keys and integers in range; the command by C85 and the lines of its output. |
| C110 | A dissection shows the attribute values that the parser reads | One lemma per entry kind says that the label step consumes the octets the parser's entry reader consumes and shows its value; the loops are joined by induction on the parser's list; prefixes by the encoding that nlriLoop_sound gives. The number of labels by relating each round over positions to the round over the remaining octets. |

## 4. Trusted base

* Lean 4.33.0's kernel.
* The axioms `propext`, `Classical.choice` and `Quot.sound`; no theorem depends on anything else (`#print axioms`, and the gate
  checks it). No `sorry`, no `native_decide`, no `bv_decide`, no axiom of our own. `decide +kernel` is evaluated by the kernel.
* The reading of the Rust source that the model embodies, function by function, with the citations in `Model/`, and the
  conventions of section 2. Nothing was run against the compiled code: the sandbox has no dependencies of the project.
* Library facts taken as the meaning of a Rust operation: `bytes::Buf` cursors, `Vec`, `HashMap`/`BTreeMap`/`IndexMap`-like
  containers as association lists, `std::io::Read::read_exact` as a loop over short reads, interruptions and errors,
  `String::from_utf8_lossy`, `ipnet` containment, integer `from_str`, binary64 rounding. Each is a definition in `Model/`.
* Parsing of addresses, prefixes, regular expressions and date strings in filters is a parameter (`TextEnv`) of the theorems.
* The address parsers used for text dumps are a parameter (`DumpEnv`), assumed to accept only non-empty texts of digits, the letters
  a to f, dots, colons and slashes (`AddrSyntax`).

## 5. What is modelled and what is not

Modelled (citations at every definition):

| module of the model | code |
|---|---|
| Nlri, Prefix | `models/network/{prefix,afi}.rs`, `parser/utils.rs` (readers, prefixes, NLRI lists) |
| AsPath, AsPathOps | `models/bgp/attributes/aspath.rs`, `attr_02_17_as_path.rs` |
| Community, Mpls, FlowSpec, LinkState, Tunnel… | `models/bgp/{community,flowspec/*,linkstate,tunnel_encap}.rs`, `models/network/{mpls,asn,nexthop}.rs`, `parser/bgp/attributes/*` |
| Attr, AttrSet | `parser/bgp/attributes/mod.rs`, `models/bgp/attributes/mod.rs` |
| Bgp, Capability | `parser/bgp/messages.rs`, `models/bgp/{mod,capabilities,error,role}.rs` |
| MrtBody, Mrt, Io | `parser/mrt/**`, `parser/mrt/mrt_header.rs`, `mrt_record.rs` |
| Elem, Filter, Route | `parser/mrt/mrt_elem.rs`, `models/bgp/elem.rs`, `parser/filter.rs`, `parser/iters/{mod,default,fallible,raw,route}.rs` |
| Recovery | `parser/iters/recovery.rs` |
| Bmp | `parser/bmp/**` |
| Rtr | `models/rpki/rtr.rs`, `parser/rpki/rtr.rs` |
| Encoder | `encoder/*` without the compressing sinks |
| Dissect | `models/dissection.rs`, `parser/bgp/dissect.rs`, `parser/mrt/dissect.rs` without the label texts |
| Diagnostic | `parser/iters/diagnostic.rs` |
| Updates | `parser/iters/update.rs` |
| Display | `Display` of `BgpElem`, `BgpRouteElem`, `AsPath`, `Origin`, `Asn`, `NetworkPrefix` and communities, `to_psv`, `get_psv_header`, `Asn::from_str`, `Ord` of elements; `Display` of `Ipv6Addr`, `f64` and `f32` are parameters |
| TextDump | `parser/text_dump.rs`, the constructors for text and automatic detection in `parser/mod.rs` from a reader; times as whole seconds |
| Json | `Serialize` and `Deserialize` of `AsPath`, `NetworkPrefix`, `Origin`, `ElemType`, communities, `AttrRaw`, `BgpElem`, `BgpRouteElem`, on JSON values |
| RisLive | `parser/rislive/**` on JSON values; `Default` and `Debug` not |
| Cli | `bin/main.rs` after clap, for MRT input, and `render/hex.rs`; JSON and record texts are parameters |
| Render | `render/text.rs`; derived `Debug` texts and the texts of warnings are parameters |
| Wasm | `wasm.rs`: the `_core` functions and the thread-local state; results are JSON values or structures, texts of errors are not modelled; the RIS Live functions are those of C81 and C82 |
| Settings | `parser/mod.rs` the builder methods, `next_record`, `warn_zebra_compat_once`; `iters/mod.rs` `handle_record_parse_error` and `write_mrt_core_dump` with their effects; `iters/default.rs`. A log line is its level and the kind of the error |
| Cache | `parser/mod.rs` the name that `new_cached` asks for, `add_suffix_to_filename`; `utils.rs` `crc32` |
| RawRuns | `iters/raw.rs` with effects; `mrt_record.rs` `write_raw_bytes`, `append_raw_bytes`: opening a file succeeds, and writing fails after some number of octets |
| LsAccess | methods of `LinkStateAttribute` and of the tunnel types in `models/bgp/linkstate.rs`, `tunnel_encap.rs`; `f32` by its bits |
| Shared | `into_elementor_and_raw_record_iter`, `into_elementor_and_record_iter`, `Peekable` of std, the threads of `examples/parallel_records_to_elem.rs` with the mutex as one atomic step |
| JsonText | `serde_json::to_string`, `to_string_pretty`, `to_value` (not in /repo), `to_json_string` of client messages, `format_elem` for JSON; the texts of real numbers are a parameter |
| NlriBuild | constructors and accessors of `Nlri`, iteration, `NextHopAddress::is_link_local`, label accessors | `Debug` and `Display` of next hops |
| Concat | no new code: statements about the iterators over concatenated input | |
| AttrOrder | no new code: statements about attribute parsing and elements | |
| Reserve | parser/mrt/messages/table_dump_v2/rib_afi_entries.rs 74-77: the capacity reserved for RIB entries |
| Keys | parser/bmp/messages/headers.rs 136-178, models/bgp/attributes/mod.rs 61-121, models/bgp/elem.rs 203-219, models/network/asn.rs 177-296: hand-written equality, order, hash and conversions |
| Rewrite | no new code: the readers and writers of attributes, UPDATE, OPEN and RIB records, one after the other |
| RewriteFile | no new code: the record readers and writers, one after the other |
| Envelopes | no new code: the decoders of the envelopes, compared |
| JSON of attributes | `Model/JsonAttrs.lean`: serde of attribute values, flags, UPDATE messages, RIB entries, TABLE_DUMP entries and announcements |
| JSON of what was read | no new code: `Model/Json.lean`, `Model/JsonText.lean`, `Model/JsonAttrs.lean` joined with the iterators and the command |
| Labels of attribute values in dissections | `Model/DissectLabels.lean`: label steps of `bgp/dissect.rs` as functions of the octets, in the order the nodes are made; `Model/DissectAttrs.lean`: attribute lists; `Model/DissectUpdate.lean`: the sections of an UPDATE; `Model/DissectMessages.lean`: headers and the other messages; `Model/DissectOpen.lean`: the optional parameters of OPEN; `Model/DissectRecord.lean`: MRT headers; `Model/DissectMp.lean`: the fields of BGP4MP bodies |
| F64, Utf8 | the timestamp arithmetic; UTF-8 decoding and encoding |

Not modelled: network access and decompression (`oneio`),
reading of JSON text by serde_json (the reader of C98 is part of its specification), serde of other types than those above, `Display` of other types than those above and `Debug` output, the reading of arguments (clap), the texts of log lines, and log lines and core dumps of the other iterators.

## 6. Where the code does not satisfy the property

Each of these is a theorem with a concrete witness (names in `MANIFEST.json`); beside it stands the part that holds.

* C03 the Add-Path heuristic misreads lists with a default route; C16 such UPDATEs do not survive a round trip.
* C07 the number of route variations overflows 64 bits, even if a later empty AS_SET means that there is no route (c07_empty_set_late).
* C11 eight kinds of attribute values are encoded without an error and read back as something else.
* C13/C14 a truncated last attribute counts as present.
* C15 a BGP message whose declared length exceeds the input is accepted.
* C17 an OPEN above 4096 octets is encoded but refused by the parser; a four-octet AS number is cut.
* C19 End-of-RIB is reported for UPDATEs that withdraw link-state routes or have malformed NLRI.
* C25/C69 one record whose body ends in an I/O error ends the default and the update iteration.
* C23 an UnexpectedEof of the reader at a record boundary is taken for a clean end.
* C27 peers with one address and two AS numbers are merged; a table with repeated addresses loses a peer.
* C28–C31 path identifiers that do not match the subtype, times and AS numbers that do not fit their fields are written
  without an error; records above 16 MiB are written but refused by the reader.
* C32/C33 labelled routes, all but the last MP attribute and RIB entries after one with an unknown peer have no elements;
  LOCAL_PREF and MED are 0 when absent; AS4_PATH is ignored in TABLE_DUMP; the size hint of the record iterator is wrong.
* C35 prefix filters with host bits set give wrong answers. C36 a double negation is not fail-closed.
* C38/C39 an interrupted read ends a recovery scan; a gap to the end of the stream may exceed the limit by five bytes.
* C43, C44, C45, C46 values that are encoded without an error and read back as others.
* C47/C65 routes that differ only in the path identifier overwrite each other; same-address peers are merged; withdrawals are
  exported as announcements; one attribute of more than 255 octets makes every export fail; IPv6 next hops are read back as IPv4.
* C49 ATOMIC_AGGREGATE is dropped. C52/C62 microseconds can come out one less.
* C53 bytes after a BGP message are shown in a node outside its parent's range; an OPEN's parameters are shown up to the end
  of the body, whatever their declared total length.
* C57 `aggregator` returns the last instead of the first; default flags of two attribute types are wrong.
* C58/C63 non-ASCII text is returned garbled. C61 the Router Key PDU is not in the layout of RFC 8210.
* C66 routes and elements differ for unknown peers, unreadable prefixes, AS4_PATH in TABLE_DUMP and cut TABLE_DUMP records. The
  route iterator does not notice broken geo peer tables, state changes and messages that are not UPDATEs; it does report a RIB
  entry whose attributes end within a length, which the record parser drops silently.
* C70 rows of text dumps are lost or get a wrong prefix: shifted rows whose next hop is an address without its first character,
  prefix-only lines longer than the column, the iBGP flag in the fourth byte, metrics wider than their column; AS sets are dropped.
* C72 the format is guessed from the first read: a short first read, a character across byte 128 or a view name `BGP table` make
  the guess wrong; an interrupted first read is an error.
* C73 a date that is not in the calendar hides a valid one after it.
* C74 read errors and lines that are not UTF-8 end the iteration of a text dump without an error, and the next call goes on after
  them; a character across a column boundary is a panic.
* C76 lines do not show path identifiers, confederation segments as such, bounds of segments and the kind of a redirect, and show
  absent and empty lists alike. C78 different elements compare as equal although `Ord` goes with `Eq`.
* C79 a sequence without AS numbers in a path is lost in the flat JSON form. C80 the document of an element with a NaN or infinite
  rate in a community is refused by the reader.
* C81 an UPDATE of RIS Live with one field of a wrong form is dropped without an error. C82 the fallback to two-octet AS numbers
  never takes effect; the AS path of such a message is lost.
* C84 bad values of four options are panics; `key=v` and `key!=v` do not accept the same lists. C85 `-e` with the text format or with
  `-r` counts elements that do not pass the filters.
* C86 the text of a record does not show path identifiers, and shows of flow specifications and link-state entries only how many there are.
* C87 a record that does not parse makes `parseMrtRecord` return the empty text, as at the end of the input, now and ever after; the documentation says that it throws.
* C92 a cached file is called `cache-<stem>.<crc32 of path>.<extension>`; documented is `cache-<crc32 of file name>-<file name>`. Two paths with the same checksum and file name share a cached file, so that the second reads the content of the first.
* C93 the filtered raw iterator is documented to match the diagnostic of the record iterator about Zebra records. It looks at a record before it is parsed, the record iterator after; a record in the short form that does not parse makes the two logs differ.
* C94 `append_raw_bytes` writes a record in two calls of `write_all`. After a failure in between a part of the record stays in the file, and records appended behind it are read as part of it.
* C95 an IGP metric in one octet: RFC 9552 has the receiver ignore the two most significant bits, `get_igp_metric` returns them. Router ids of the remote node (1030, 1031) are link attributes, but are always read as unknown.
* C96 `get_tunnel_egress_endpoint` takes the value for a bare address, RFC 9012 puts six octets in front: nothing is returned. `get_color` returns the first half of the Color extended community, which is its type and flags, and not the colour. `get_preference` starts at the flags, two octets too early: the default 100 is returned as 0.
* C97 the shared elementor knows only a table that is the first record. After a second table routes are given to peers of the first; a table behind another record is not found at all and the routes after it are dropped (`MissingPeerTable`). The element iterator handles both.
* C99 `parse_nlri` does not dispatch on the SAFI except for labelled routes and link state: flow specifications, VPN and multicast VPN routes are read as plain prefixes. A FlowSpec rule for 192.0.2.0/24 gives announcements of 1.0.0.0/5 and 192.0.2.0/24; `flowspec_nlris` is never set by the parser.
* C100 `encode_nlri` writes nothing of the routes of a labelled withdrawal (`encode_labeled_withdrawal` exists but is not called), of link-state NLRI only type and a zero length, and no length octet for a missing next hop, so that such attributes are not read as built. `NextHopAddress::is_link_local` is true for every pair of addresses, while `addr()` gives the first, global one.
* C101 The elementor keeps the peer index table over the end of a file: RIB records of a second file without own table are silently given to the peers of the first one's table. A record whose body ends in an I/O error ends the default iterators and hides the whole second file (compare C25).
* C102 `get_relevant_attributes` takes the later of AGGREGATOR and AS4_AGGREGATOR, whatever the AS in AGGREGATOR: with AS4_AGGREGATOR first, the element says AS 23456; with another AS in AGGREGATOR, AS4_AGGREGATOR and AS4_PATH are used although RFC 6793 4.2.3 says to ignore them. Of duplicates, elements use the last (RFC 7606: the first), while `Attributes` gives the first.
* C104 `BmpPerPeerHeader` compares times as numbers and hashes their bits: 0.0 and -0.0 break the contract of `Hash`, NaN that of `Eq`. `AttrType::Unknown(1)` compares as equal to ORIGIN without being equal.
* C105 Accepted inputs that are lost when written again: MP_REACH_NLRI without next hop, labelled withdrawals, link-state NLRI, large AGGREGATOR in two-octet sessions, long tunnel sub-TLVs of unassigned types, the abbreviated MP_REACH_NLRI in RIB records with path identifiers, a /0 prefix under the link-state family with another SAFI, OPEN parameters of type 255.
* C106 A GEO_PEER_TABLE whose name has an octet of 128 or more is read, but written and read again with another name (the name is decoded as Latin-1 and written as UTF-8).
* C107 An UPDATE of an Add-Path session gives its routes in an MRT record of an ADDPATH subtype, but other routes, and no error, in a BMP or RIS Live message.
* C108 `Attributes` written as JSON lose their validation warnings and, after a truncated attribute, its type: `has_attr` of the attributes read back differs.
* C108 An attribute list with a NaN or infinite `f32` (traffic rate, link bandwidth, unreserved LSP bandwidth) can be written as JSON, but the document cannot be read.
* C108 `LabeledNetworkPrefix` is read from JSON without the checks of `try_new`: an empty label stack is accepted.
* C109 An element with an infinite or NaN rate is written as JSON with null, and that line cannot be read back; the lines before and after it can.
* C110 The dissection of an AGGREGATOR accepts any length above four octets, so a value the parser refuses is shown as an AS number and a router ID.
* C110 MP_REACH_NLRI with labelled prefixes is dissected as plain prefixes: 10.0.0.0/8 with label 100 is shown as 0.6.65.10/32.
* C110 The dissection does not follow the parser's guess of path identifiers: where the parser reads one prefix with identifier 0, five are shown.
* C110 The dissection shows the prefixes of a malformed NLRI section up to the mistake; the parser keeps none of them.
* C110 The dissection of an ISIS_ET or OSPFv3_ET record shows the first four octets of the body as microseconds; the parser reads microseconds in BGP4MP_ET only.
* C110 The session states Clearing and Deleted, which the parser reads, are dissected as Unknown. The record types below 12 are dissected as UNKNOWN although the parser knows them.
