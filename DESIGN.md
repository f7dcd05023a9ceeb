# Formal model of the RKSV verification tools (ztp-at/RKSV)

The model is a set of Lean 4 modules under `lean/Verif/`. It mirrors the Python
functions branch by branch, with exceptions as values (`Res α = Except Err α`).
The code in `/repo` is never run; the tie between model and code is the
`file:lines` citation on every definition.

## Layout

* `Verif/Py/*`     – the Python / library behaviour the code relies on: strings
  (`List Char`), bytes (`List UInt8`), `split`/`join`/`replace`/`strip`, UTF-8,
  base64/base32 with CPython's lenient decoding, `int(s, base)`, `'%x'`, `'%d'`,
  `int.to_bytes`/`from_bytes`, dictionaries, binary64 arithmetic over ℚ,
  `strptime`/`strftime`.
* `Verif/Model/*`  – the code of `librksv` (with `run_test.py`), `split.py`, `merge.py`, `demo.py`,
  `verify.py`, `verification_state.py`, `key_store.py` and the parts of `rktool.py` that decide on a DEP.
* `Verif/Spec/*`   – small specifications that do not mention the model's
  helper functions. Property theorems are stated with these.
* `Verif/Lemmas/*` – helper lemmas.
* `Verif/Props/*`  – the property theorems of `properties.jsonl`. `namespace
  Demo` in these files holds concrete cases that meet the hypotheses, and
  witnesses for claims that are false of the code.
* `MANIFEST.json`  – property → theorems (made by `tools/mkmanifest.py` from
  `tools/manifest_claims.py`); `lean/Verif.lean` is made by `tools/mkroot.sh`.
* `seeded/`        – tests of the theorems against wrong programs: `run.py`,
  the lists of edits `mutants*.py`, and the results `LOG.jsonl`.

## Trusted base

* Lean's kernel, and the axioms `propext`, `Classical.choice`, `Quot.sound`.
  Every theorem depends on a subset of these three; `AXIOMS.txt` lists the
  axioms of each theorem of the manifest as printed by `#print axioms`
  (regenerate with `sh tools/axioms.sh`). No axiom is added, there is no
  `sorry`, `native_decide` or `bv_decide`. Concrete cases are evaluated by
  the kernel (`decide +kernel`).
* Faithfulness of the model to the source, documented by citations.
* Cryptography and the Unicode tables are parameters (class `PyEnv` in
  `Py/Env.lean`): SHA-256 (only its length is known), the AES-CTR key stream,
  ECDSA sign/verify (a signature made verifies and has 64 bytes), certificates
  (serial, fingerprint, public key, "signed by"), PEM loading and export (a
  certificate that was exported loads as itself), and the non-ASCII parts of
  `str.isdigit`, `str.isalnum`, `str.upper`, `str.lower`, `\d`, `str.strip`.
  Only the facts stated as fields of that class are assumed; a concrete
  instance (`Demo.env`) shows that they are satisfiable. Theorems quantify over
  every instance. No cryptographic hardness is assumed: statements that need
  it are of the form "or here is a collision".

## What is modelled, property by property

Each line: what is modelled → how it is proved. (P) marks properties that are
false of the code in general: the negation is proved with a witness and a
`_partial` theorem states what does hold.

* C01–C05, C10: `fromJWSString`, `toJWSString`, `fromBasicCode`, `toBasicCode`,
  `fromOCRCode`, `toOCRCode`, `fromCSV`, `toCSV` on character lists → round-trip
  laws from lemmas on split/join, UTF-8, base64, base32. C04 (P): empty counter
  text; on Python 3 OCR reading always fails. C05 (P): `;` or outer white space
  in fields.
* C06–C09, C12: full validation logic of `Receipt.__init__` with error values →
  inversion of the parser. C07, C08 (P): `$` in the regular expressions admits a
  trailing line break, which makes an empty counter pass.
* C11: base64 functions → induction over byte lists.
* C13, C14: binary64 as rationals with round-to-nearest-even, infinities and
  NaN → error bound `|rnd q − q| ≤ |q|·2⁻⁵³`. C14 (P) beyond 2⁴⁹ cents.
* C15, C16: big-endian two's complement and CTR mode over an arbitrary key
  stream → arithmetic induction.
* C17: `toURLHash`, `verifyURLHash`, `getURLHashFromURL` → induction over the
  URL; the hash is the last maximal run of eleven URL characters.
* C18–C22, C65: `ReceiptVerifier.verify*` with key selection → case analysis
  plus the format lemmas; the errors are characterised exactly. C20 also: the texts that
  `int(s, base)` reads against a grammar (`Spec/IntText`).
* C23, C24: `verifyCert` → induction over the chain against an existential
  specification of a trust path.
* C25–C31: `verifyGroup` as a fold over receipts; a declarative rule set
  (`Spec/VerifyGroup`) is proved equivalent to acceptance; the single rules are
  corollaries by induction on the history.
* C32: collision extraction by induction on two accepted histories.
* C33, C34: state passing; the state written as JSON and read again.
* C35–C38: `updateFromDEPGroup`, `prepareVerificationTuples`, `verifyParsedDEP`
  with and without pool (any choice of the failure reported first), both used-ID
  backends → simulation between speculative and sequential states. C37, C38 (P):
  shared used-ID object without pool, per-chunk certificate rule.
* C39–C46: `ClusterState`, `CashRegisterState`, used-ID backends, JSON values.
* C47–C50, C66, C67: `KeyStore` as association list, JSON and INI conversion,
  `loadKeyFromJson`. C49 (P): an entry with an empty ID raises `IndexError`.
* C51–C55, C68, C69: `DictDEPParser`, the `DEPState*` automaton over ijson
  events, `StreamDEPParser`, `CertlessStreamDEPParser`, `FileDEPParser` →
  refinement between automaton and dictionary parser. C55 (P).
* C73: the same parsers on arbitrary documents → inversion of the automaton: what
  it accepts is a DEP. C73 (P): the dictionary parser also takes receipts from
  texts and dictionaries.
* C74: `verify.py` with its `par`/`chunksize` modes and the state passed from run
  to run → composition of C36, C38, C44, C73 with an invariant on states. C74
  (P) for the same reasons as C38 and C73.
* C75: the commands of `verification_state.py` on a state file → each command is
  characterised by an edit relation, sequences by induction through the JSON
  round trip (C44). C75 (P): resetting a register drops all used receipt IDs.
* C76: `updateCashRegister` → the certificate-less parser yields the receipts of
  the file parser (simulation), chunk sizes do not matter (C38), and the fold of
  `updateFromDEPGroup` follows verification (C35).
* C77: the commands of `key_store.py` on a container file → simulation of a finite
  map with an AES key, by induction over command sequences through the JSON round
  trip (C48). C77 (P): legacy INI files can hold certificate IDs that cannot be
  read back.
* C78: `convert.py` with Python's universal newlines and line iteration → the
  text is characterised row by row, then lines are split and read back (lemmas on
  `fileLines`), then C32/C38 for acceptance. C78 (P): IDs with line breaks.
* C79, C80: the loops of `receipt.py` and `verify_receipt.py` over lines →
  induction over lines, round trips from C01 to C05, errors from C08. C80 (P):
  OCR codes on Python 3.
* C81: `receipt_host.py` as a dictionary built from its input, the server as a
  function from URLs to texts → last-writer lemma, C62 for hashes in URLs.
* C82: `cert_extract.py` → if no chunk gets full before the certificates are seen,
  the parser's chunks carry the certificates of the document (simulation with
  the file parser, C53); files are the last-writer map. C82 (P): otherwise
  certificates can be lost.
* C83: acceptance of a whole DEP is characterised by a declarative rule set over
  the receipts of all groups, each with its verifier (`Spec/DepRules`) → append
  lemma for the group rules (C25–C31) along the list of groups, C38 and C74 for
  the modes of `verify.py`.
* C84: `CashRegister`, `DEPExporter` and `verify.py` composed → C60 gives the rules
  for the whole history, C59 the documents, C83 acceptance of each part by
  splitting the rules at the cuts, and induction over the parts.
* C85: induction over registers with C84; the state after one register is the
  hypothesis for the next one's chain.
* C86: each step of `CashRegister.receipt` that can raise is characterised by a
  condition on the order → inversion of the model one way, evaluation the other;
  induction over orders with the counter from C72.
* C87: `demo.py` with the random numbers and the clock as a parameter → the IDs are
  new and increasing (zero padding), the orders obey the rules, C86 gives the
  receipts and C84 acceptance.
* C88: induction over the runs with an invariant for each register (its receipts so
  far are accounted for, the rest obeys the rules); the rule about IDs is the only one
  that other registers matter for.
* C89: `run_test.runTest` → an invariant of its main loop relates registers, groups and
  DEPs to the receipts made so far; a lemma about the key store it fills; then C88.
* C90 (P): an invariant of the same loop for the positions of the DEPs of each
  register. (P): the number of the current register is wrong if a register is started
  after an older one was continued.
* C91: the incremental parsers accept nothing but DEPs with receipts, whatever
  certificates they are supplied with → run related to one with the right
  certificates (C76's simulation), then C73; composed with each tool.
* C92: the list of faults of a receipt in order of precedence (`Spec/GroupErrors`),
  each with its exception; every stage of `verifyGroup` fails exactly with the first
  fault of its part of the list, and the loop with the first receipt that has one.
  No fault is the same as C85's rules (`faultless_iff`).
* C93: `run_test.runTest` with `override` elements (`Model/RunTestFull`, equal to the model
  of C89 without them: `runTestFull_plain`) → an invariant of the main loop relates each
  register object to the receipts it made, and the groups and DEPs to the parts of the
  list of instructions. What a receipt has to say is defined from the instruction and
  the receipts before it only (`Spec/TestContents`). An empty `JWS` override is excluded
  (the text is taken for "no receipt yet").
* C94: `CashRegister.receipt` with `override` (`Model/Falsify`), equal to the model of
  C60 if nothing is overridden (`receiptWith_empty`); the falsified receipt is put
  beside the one that would have been made, which obeys the rules (C72), so that all
  faults before the one announced are absent; then C92.
* C95: `test_verify.testVerify` and `_testVerify` (`Model/TestVerify`), with both ways of
  verifying; the random chunk sizes and the processes are parameters → the loop over the
  DEPs is "accepted one after the other with the right turnovers" (`testDeps_iff`), the
  second way succeeds exactly if the first does (C74's modes, and the comparisons of parser
  results succeed: `testParsed_iff`). For test cases that follow the rules C89 gives
  acceptance; the counter after each DEP comes from C89 for the first part of the
  instructions, which gives the first part of the DEPs (`runTest_prefix`).
* C96: the full model of the test case runner (C93), beside the honest run up to the
  falsified receipt → the two runs agree before it (`Lemmas/TestFalsify`), the DEPs they write
  read back as groups (`Lemmas/TestHistory`), what the verifier has seen of the register is
  what the DEPs before contain (`Knows`); then C89 for the DEPs before and C94 for the receipt.
  The driver (C95): it can only report success after it has met that DEP (`driver_refused`).
* C97: texts as lists of pairs that may repeat keys, and what `json.load` makes of them
  (`Model/JsonLoad`) → the marks the incremental parser keeps of the elements it has met count
  their occurrences (`element_ok`, `root_ok`), so after acceptance each occurs once; the other
  direction is C53's run with "not repeated" for the elements only.
* C56: `getChunksForProcs`, `balanceGroupsWithVerifiers`.
* C57–C59, C71: `DEPStream`, `MergingDEPStream` as a lazily read object with an
  arbitrary reader, `DEPExporter`, `split.py`, `merge.py`. C57 (P): the chain
  comparison in the code compares a value with itself.
* C60–C62, C72: `CashRegister`, the three signature systems, and the verifier →
  invariant relating register and verifier over any history of orders. C61, C62
  (P): calls that raise may have booked already; a remote service's answer is
  trusted; serials with underscores.
* C63, C64: PEM line wrapping, BOM skipping.
* C70: the graphical tool's load, prepare, main and finalize tasks → composition
  of C36, C38 and C56.

* C98 (P): the tab for DEPs as a machine (`Model/GuiRun`): state of the widget, tasks given
  to the pool, callbacks queued on the main thread; events are user actions, ends of tasks
  and deliveries of callbacks → invariant over all event sequences (`basic`: a verdict has a
  press behind it; `Closed`/`Started`: all outstanding work belongs to the last press), a
  measure for the end of background work, and C70 for what the packages say together. The
  full statement is false (`Demo.gui_race`). Modelled is the desktop's pool of processes,
  which pickles arguments; for the threads used on Android see C104.
* C99 (P): the tab for single receipts and the window it opens as a machine
  (`Model/GuiReceipt`) → C06 and C81 for reading, an invariant over all sequences of
  events (the button says how many tasks and callbacks are outstanding: one or none; a
  verdict is that of the last press), C18 and C65 for what the verdict means, C15 for the
  turnover counter.
* C100 (P): the tab for the key store as a machine (`Model/GuiKeys`) → invariant over all
  histories (the tree is that of the store; the store is the map of what was done, as in C47;
  every key has a source; certificates have hexadecimal IDs if imports have), C48 for export
  and import, C49 for what importing raises. That no action ends the application is false.
* C101 (P): exceptions as objects with the arguments their constructors keep
  (`Model/Exceptions`), `pickle` as `__reduce__` and calling the class again → case analysis
  over the classes; the pool with results that may never arrive (`Model/Pool`) → C02 and the
  refusal rules: with a key of 32 bytes no worker raises the exception that is lost, so the
  answer is that of `Model/VerifyTool`. That the tool always ends is false.
* C102: the loops of receipt.py and verify_receipt.py with the input format `url`
  (`Model/UrlTools`), the server as a function from URLs to answers or failures → induction
  over the lines as in C79 and C80; with receipt_host.py: C03, C17 and C81 for each line.
* C103: `strptime` (`Py/DateTime`) against a separate specification of the calendar and of
  the texts (`Spec/Calendar`) → field by field; the order of times by induction over the
  seconds before the later one (every second but the first has one before it, with none in
  between).

* C104 (P): the machine of C98 with one more choice at every abort, the threads that go on
  (`Model/GuiThreads`) → the invariants of C98, with all outstanding work belonging to some
  press rather than to the last one; refinement of C98 if no thread goes on.
* C105: the pieces of text `JSONExporter` yields while receipts are being read, with
  `FakeListIterator` reading the first element early (`Model/ExportText`), for convert.py,
  split.py, merge.py and demo.py → induction over groups and receipts: what is written until an
  exception, closed by the missing brackets, is the text of the DEP read so far; a scanner of
  brackets and strings, invariant under a generous grammar of JSON (`Spec/JsonText`), tells it
  from every JSON text; the complete text stands for the document (`Spec/JsonValue`, RFC 8259).
* C106 (P): what `convert.py json2csv` prints until an exception (`Model/CsvText`) → induction
  over the receipts; the lines of a file without line break at its end. That `csv2json` refuses
  interrupted files is false (`Demo.csv_mistaken`).
* C107 (P): the contents of a file when the program or the machine stops while it is written
  (`Model/FileWrite`) → the scanner of C105 stays within the outermost bracket on every proper
  beginning of a JSON text, by induction over the grammar. That the old contents survive until the
  new ones are complete is false (`crash_loses`).

## Where the code does not do what one would expect

Found while modelling; those marked with a theorem are proved by witness.

* The regular expressions end in `$`, so algorithm, ZDA and sums may end in a
  line feed (`Demo.newline_in_fields`); a counter of a lone line feed is accepted
  (`Demo.empty_counter_accepted`); a signature `abcd===\n` passes as well.
* A JWS text can be rewritten without changing its meaning
  (`jws_string_malleable`); the chain hash is over the text as given.
* OCR codes cannot be read at all on Python 3 (`ocr_python3`).
* Amounts beyond 2⁴⁹ cents lose cents, amounts with more than 308 digits raise
  `OverflowError` (`Demo.turnover_inexact`, `Demo.turnover_overflow`).
* The failure mark is compared as text (`Demo.mark_compared_as_text`).
* `fromArbitraryReceipt` starts with counter 0 if the first receipt is a training
  or reversal receipt, and the state predicted for a state with a last but no
  start receipt guesses the start receipt (`Demo.start_guessed`).
* Without a pool and with `nprocs > 1` valid DEPs are rejected
  (`Demo.no_pool_differs`). The first receipt's ID is not compared with the used
  ones by the sequential verifier (`Demo.first_id_differs`). An empty parser
  result ends in `AttributeError` in `verifyParsedDEP`.
* Several groups without certificate: verdict depends on the chunk size
  (`Demo.chunk_size_matters`) and on merging (`Demo.merging_changes_verdict`).
* Natural order: `A1`/`a1` and `01`/`1` have equal keys
  (`Demo.sorted_refuses_distinct`), `²` raises `ValueError`, a number against a
  text raises `TypeError`.
* `lastTurnoverCounter` may be a JSON boolean.
* `readStoreFromJson` raises `IndexError` for an empty ID
  (`Demo.empty_id_escapes`), and moves certificates to another ID if their ID is
  no hexadecimal number (`Demo.odd_id_moves`).
* Receipts given as a text or dictionary are taken apart by character or key,
  and `null` raises `TypeError` (`Demo.receipts_null`); the incremental parsers
  treat dotted and empty keys differently (`Demo.dotted_key_differs`,
  `Demo.empty_key_differs`); the stream parser refuses a group without
  certificate (`Demo.stream_no_cert`).
* Receipts given as a dictionary are accepted by `verify.py` with `chunksize 0`
  and refused otherwise (`Demo.dict_takes_keys`, `Demo.modes_differ`).
* If a JSON text repeats the list of groups or the receipts of a group, `verify.py` with
  `chunksize 0` verifies the last ones and does not notice the others; otherwise the text is
  refused (`full_root_overridden`, `full_group_overridden`, `Demo.twice_differs`, `Demo.group_twice_differs`).
* Which exception is reported for a DEP with several faults depends on the mode:
  with chunks, used IDs of earlier DEPs are compared last (`Demo.mode_reports`).
* `verification_state.py` does not import `getBasicCodeFromURL`, so its `url`
  input format ends in `NameError` (not modelled).
* `resetCashRegister` replaces the used receipt IDs of the whole cluster by an
  empty object, so receipts of other registers may be repeated afterwards
  (`Demo.reset_forgets`); `updateCashRegister` does not add the IDs it sees.
* `fromLegacyIni` takes certificates under any ID; the container it writes cannot
  be read if the ID is no number (`Demo.legacy_breaks_container`).
* CSV files do not quote: a receipt ID with a line break makes two receipts out of
  one (`Demo.csv_two_for_one`).
* `verify_receipt.py` ends with `AttributeError` at the first OCR code on Python 3
  (`verify_receipt_tool_python3`).
* `cert_extract.py` loses certificates that come after the receipts of a group
  which fill a chunk (`Demo.certificate_lost`); certificates with equal serial
  numbers overwrite each other.
* Merging compares a certificate chain with itself (`Demo.merge_ignores_chain`);
  reading merged groups out of order can reorder receipts
  (`Demo.read_out_of_order`).
* `skipBOM` leaves a byte order mark on inputs that cannot be rewound
  (`skip_bom_pipe`).
* The register books an amount before a call that raises
  (`Demo.failed_call_counts`), trusts the answer of a remote service
  (`Demo.remote_answer_trusted`), accepts serials with underscores
  (`Demo.underscore_serial`), and with amounts that are not whole cents its own
  receipts are rejected (`Demo.fractions_rejected`).
* `runTest` counts registers with `curRegIdx += 1`, also after `curRegIdx` was set to
  an older register, so a DEP can refer to one of another register, and the test
  driver takes it for that register's (`Demo.wrong_register`).
* The test driver does not check a turnover of zero (`TurnoversRight` excludes it).
* The graphical tool queues answers of tasks on Kivy's clock; `verifyAbort` stops the pool
  but not the answers queued, which are only checked against `_verifying`. Loading another
  DEP and pressing Verify before they are delivered attaches them to the new DEP: "Valid
  DEP" is shown for a DEP that is not (`Demo.gui_race`).
* The tool's tasks catch only exceptions about receipts and DEPs. Others, such as that of an
  AES key of wrong length, end the task without calling its callback: "Verifying..." stays
  and no error is shown (`Demo.gui_stuck`).
* On Android an abort does not stop the threads for certain: `ThreadPool.terminate` asks only the
  thread started last, and nobody waits for it. If another file is loaded while the first one
  is being verified and the button is pressed again, the thread for the first file can go on and
  its verdict "Valid DEP" is shown for the second (`Demo.thread_race`), even if no callback
  waits when the button is pressed.
* After "Valid DEP" a change of the AES key or key store does not take the verdict back; it is
  about those at the time Verify was pressed.
* Reading an OCR code in the receipt tab of the graphical tool raises `AttributeError` under
  Python 3, which is not caught there and ends the application (`Demo.ocr_ends`).
* The DEP tab passes the stored compressed receipt to `fromJWSString` without
  `expandDEPReceipt` (rktool.py:600), so under Python 3 receipts of a DEP cannot be viewed: an
  error is displayed for each. Seen by reading, not modelled.
* A key file whose JSON root is not a dictionary, or an answer of the server without `code`,
  is an exception the receipt tab does not catch.
* `importKeyStoreCb` (rktool.py:945-949) does not catch key store exceptions, so importing any
  JSON value that is no key store ends the graphical tool (`keys_tab_total`,
  `Demo.import_ends`). A container with IDs like `--5` can be imported, but loses
  certificates when it is exported and imported again (`Demo.export_merges`).
* `InvalidKeyException` (librksv/utils.py:64-70) does not set `_initargs`, so unpickling it
  calls its constructor with an argument it does not take (`exception_lost`). In a pool this
  ends the thread that reads the results and the main process waits for ever.
  `updateFromDEPGroup` ignores an empty key, `verifyGroup` does not: a container with
  `"base64AESKey": ""` makes `verify.py par 2` hang for every DEP that is accepted without AES
  key and counts turnover (`tool_hangs`, `Demo.day_two_processes`); one process refuses it
  (`empty_key_reported`). For other wrong lengths the main process mostly raises the exception
  itself before the workers are asked. In the graphical tool this is how `Demo.gui_stuck`
  comes about; aborting then raises `AssertionError` in `Pool.terminate` under Python 3
  and ends the application (seen by reading, not modelled).
* `balanceGroupsWithVerifiers` raises `ValueError` without receipts
  (`balance_empty`).
* If `convert.py json2csv` ends with an exception, what it has printed lacks only the line
  break at the end, and `convert.py csv2json` accepts it as a shorter DEP (`Demo.csv_mistaken`).
* verification_state.py and key_store.py empty the file before they write it, and the former reads
  its input from the same file: if the machine stops in between, the old state is lost and there is
  no new one (C107). The file left over is no JSON text, so no tool uses it.

## Not modelled

Network access (A-Trust's protocol and URL download apart from "it answers a text or
fails"; Flask's routing), the Kivy widgets other than the tabs for DEPs (C98), receipts (C99) and the key store
(C100), image decoding, gettext messages (exceptions are
values, texts are dropped, subclasses of the DEP and key store parse errors are
one value), process pools beyond "each work package is evaluated on its own copy
of its arguments and any failure may be reported first" (and what arrives of the results,
C101; what `Pool.terminate` does after a result was lost is not), memory use, X.509
parsing, the reading of JSON and INI texts (JSON values and ijson event streams are
modelled, and the text of exported DEPs, C105), lone surrogates in Python strings (Lean `Char` excludes them), the
limit of 4300 digits for `int()` in recent Python versions, `strftime` for years
before 1000, negative `chunksize`/`nparts`, `float` rounding in
`ceil(float(n) / k)` for 2⁵³ or more receipts, overriding methods with
`CashRegister.receipt`'s `override` argument, file system and command line handling of
the scripts, the making of certificates and reading of specifications in
`run_test.py`, negative indices in specifications, the expectations about messages and
receipts of exceptions in `test_verify.py`, and the rest of the test infrastructure.
