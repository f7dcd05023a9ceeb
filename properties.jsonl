{"id": "C01", "title": "JWS object round trip", "statement": "Whatever receipt object a parser returned, writing it with toJWSString and reading the result back with fromJWSString yields the same receipt (all fields, header, signature) and the same algorithm ID.", "quantifier": "every receipt object that any of the string parsers can return", "why_tests_cant": "infinitely many field values, Unicode contents and base64 lengths", "anchors": ["librksv/receipt.py:Receipt.fromJWSString", "librksv/receipt.py:Receipt.toJWSString", "librksv/receipt.py:Receipt.toPayloadString"]}
{"id": "C02", "title": "JWS string round trip", "statement": "Reading a JWS string and writing it again gives back the identical string exactly when the header and payload segments are canonical unpadded base64url; in particular it holds for every string toJWSString or a signature system produces. A non-canonical but accepted string is rewritten to a different string.", "quantifier": "every string accepted by fromJWSString", "why_tests_cant": "needs the exact set of accepted strings, not samples", "anchors": ["librksv/receipt.py:Receipt.fromJWSString", "librksv/receipt.py:Receipt.toJWSString", "librksv/utils.py:urlsafe_b64decode"]}
{"id": "C03", "title": "QR code round trip", "statement": "fromBasicCode(toBasicCode(r)) returns r with its signature replaced by the canonical base64url text of the same signature bytes, hence r itself whenever the signature text is canonical.", "quantifier": "every receipt object that any of the string parsers can return", "why_tests_cant": "all field values and signature lengths", "anchors": ["librksv/receipt.py:Receipt.fromBasicCode", "librksv/receipt.py:Receipt.toBasicCode"]}
{"id": "C04", "title": "OCR code round trip", "statement": "fromOCRCode(toOCRCode(r)) returns r with turnover counter, chaining value and signature texts replaced by the canonical base64 text of the same bytes (Python 2 semantics); under Python 3 every 13-element OCR code makes fromOCRCode fail with an AttributeError.", "quantifier": "every receipt object that a parser can return, both interpreter generations", "why_tests_cant": "all byte lengths and contents of the three base32 fields", "anchors": ["librksv/receipt.py:Receipt.fromOCRCode", "librksv/receipt.py:Receipt.toOCRCode", "librksv/utils.py:b32decode"]}
{"id": "C05", "title": "CSV round trip", "statement": "fromCSV(toCSV(r)) = r for a receipt with canonical signature text whose register ID, receipt ID and other fields contain no ';' and no leading or trailing white space; otherwise the CSV row may be unreadable or read back as something else.", "quantifier": "every receipt object that a parser can return", "why_tests_cant": "all field contents", "anchors": ["librksv/receipt.py:Receipt.fromCSV", "librksv/receipt.py:Receipt.toCSV", "convert.py"]}
{"id": "C06", "title": "Receipt parsers fail only with documented receipt errors", "statement": "For every string, fromJWSString, fromBasicCode and fromCSV either return a receipt or raise one of MalformedReceipt, UnknownAlgorithm, AlgorithmMismatch, CertSerialInvalid or InvalidCertificateProvider; no other Python exception escapes.", "quantifier": "every input string", "why_tests_cant": "the input space is all strings", "anchors": ["librksv/receipt.py:Receipt.fromJWSString", "librksv/receipt.py:Receipt.fromBasicCode", "librksv/receipt.py:Receipt.fromCSV", "librksv/receipt.py:Receipt.__init__"]}
{"id": "C07", "title": "Parsed receipts are well formed", "statement": "Every receipt returned by a parser has nonempty register and receipt IDs without '_', a ZDA of the form XX<number> or AT0, a valid calendar timestamp, five well-formed sums, a chaining value of 8 bytes, and the ZDA is AT0 exactly when the serial is a company ID (S:/U:/G:) and not a certificate serial.", "quantifier": "every input string accepted by a parser", "why_tests_cant": "needs all accepted strings", "anchors": ["librksv/receipt.py:Receipt.__init__", "librksv/receipt.py:CertSerialType.getCertSerialType"]}
{"id": "C08", "title": "Turnover counter length is constrained", "statement": "Every receipt returned by a parser carries an encrypted turnover counter of 5 to 16 bytes, or one of the markers TRA / STO.", "quantifier": "every input string accepted by a parser", "why_tests_cant": "needs all accepted strings including odd line-break cases", "anchors": ["librksv/receipt.py:Receipt.__init__", "librksv/receipt.py:Receipt.fromJWSString", "librksv/utils.py:b64decode"]}
{"id": "C09", "title": "JWS header is pinned to the algorithm", "statement": "Every receipt returned by any parser has algorithm ID R1 and the exact JWS header {\"alg\":\"ES256\"}, so the signature algorithm can never be chosen by the input.", "quantifier": "every input string accepted by a parser", "why_tests_cant": "an attacker chooses the header", "anchors": ["librksv/receipt.py:Receipt.fromJWSString", "librksv/receipt.py:Receipt.fromBasicCode", "librksv/algorithms.py:R1.jwsHeader"]}
{"id": "C10", "title": "Payload text is unambiguous", "statement": "Two receipts with well-formed fields that produce the same payload text (the signed data) agree on every field; two that produce the same JWS string are the same receipt.", "quantifier": "every pair of receipts returned by parsers", "why_tests_cant": "pairs of unbounded strings", "anchors": ["librksv/receipt.py:Receipt.toPayloadString", "librksv/receipt.py:Receipt.toJWSString"]}
{"id": "C11", "title": "Base64 helpers are inverse to the encoders", "statement": "Decoding the (url-safe, padding-stripped and restored, or standard) base64 text of any byte string yields these bytes; accepted texts are exactly alphabet characters followed by up to three '=' and at most one line break, with enough padding for their length.", "quantifier": "every byte string and every text", "why_tests_cant": "all lengths modulo 3 and all contents", "anchors": ["librksv/utils.py:restoreb64padding", "librksv/utils.py:urlsafe_b64decode", "librksv/utils.py:b64decode"]}
{"id": "C12", "title": "Receipt kinds are disjoint and visible", "statement": "A receipt is dummy exactly if its counter decodes to TRA, reversal exactly if STO, never both, and a receipt with an encrypted counter of at least 5 bytes is neither.", "quantifier": "every receipt", "why_tests_cant": "all counters", "anchors": ["librksv/receipt.py:Receipt.isDummy", "librksv/receipt.py:Receipt.isReversal"]}
{"id": "C13", "title": "Zero turnover is exact", "statement": "isNull holds exactly if all five sum texts denote 0 (including -0,00), in spite of binary floating point.", "quantifier": "every five well-formed sum texts of any length", "why_tests_cant": "decimal to binary rounding over unbounded texts", "anchors": ["librksv/receipt.py:Receipt.isNull", "librksv/utils.py:getReceiptFloat"]}
{"id": "C14", "title": "Turnover arithmetic is exact in cents", "statement": "int(round((a+b+c+d+e)*100)) over the parsed binary floats equals the exact sum of the five decimal amounts in cents whenever the absolute amounts total at most 2^49 cents; beyond the range of doubles' exactness it can be wrong.", "quantifier": "every five decimal amounts", "why_tests_cant": "floating point error over all inputs", "anchors": ["librksv/verify.py:verifyGroup", "librksv/verification_state.py:CashRegisterState.updateFromDEPGroup", "librksv/cashreg.py:CashRegister.receipt"]}
{"id": "C15", "title": "Turnover counter encryption is lossless", "statement": "Decrypting an encrypted turnover counter with the same key, register ID and receipt ID gives the counter back for every value representable in the chosen number of bytes (signed); an unrepresentable value raises an error instead of wrapping.", "quantifier": "every counter value, size 5..16, key, register and receipt ID", "why_tests_cant": "all values including both ends of the signed range", "anchors": ["librksv/algorithms.py:R1.encryptTurnoverCounter", "librksv/algorithms.py:R1.decryptTurnoverCounter"]}
{"id": "C16", "title": "Turnover counter IV reuse", "statement": "Receipts whose register ID and receipt ID have the same concatenation are encrypted with the same key stream; for a fixed register ID different receipt IDs feed different inputs to the hash.", "quantifier": "every pair of (register ID, receipt ID)", "why_tests_cant": "all pairs", "anchors": ["librksv/algorithms.py:R1.encryptTurnoverCounter"]}
{"id": "C17", "title": "URL hash", "statement": "verifyURLHash accepts exactly the text toURLHash returns for the same receipt; the hash is always 11 characters of the base64url alphabet, and getURLHashFromURL recovers it from any URL ending in '/<hash>' or '#<hash>' built from a base without '#'.", "quantifier": "every receipt, every URL prefix", "why_tests_cant": "all receipts and prefixes", "anchors": ["librksv/receipt.py:Receipt.toURLHash", "librksv/verify_receipt.py:verifyURLHash", "librksv/url_receipt_helpers.py:getURLHashFromURL"]}
{"id": "C18", "title": "Accepted receipts carry a valid signature", "statement": "If a receipt verifier accepts a receipt text, then the signature check succeeded for the canonical JWS form of exactly the returned receipt under the public key of the given certificate, or, without certificate, under a key stored for the receipt's key ID or serial; receipts marked as unsigned are never accepted.", "quantifier": "every verifier, every receipt text in any of the formats", "why_tests_cant": "all texts and key stores", "anchors": ["librksv/verify_receipt.py:ReceiptVerifier.verify", "librksv/verify_receipt.py:ReceiptVerifier.verifyJWS"]}
{"id": "C19", "title": "Properly signed receipts are accepted", "statement": "If the text parses, is not marked as unsigned, the serial matches the certificate (open systems) or a key is stored under the key ID, and the signature check succeeds, then the verifier accepts it.", "quantifier": "every verifier and receipt", "why_tests_cant": "completeness over all inputs", "anchors": ["librksv/verify_receipt.py:ReceiptVerifier.verify"]}
{"id": "C20", "title": "Serials match in hex and decimal", "statement": "For every certificate serial number n the verifier regards both the hexadecimal and the decimal rendering of n (with or without a leading '-') as matching the certificate, and a receipt serial text matches at most two serial numbers up to sign.", "quantifier": "every integer serial and every serial text", "why_tests_cant": "unbounded integers", "anchors": ["librksv/key_store.py:numSerialToKeyId", "librksv/key_store.py:strSerialToKeyIds"]}
{"id": "C21", "title": "Receipt signature covers every field", "statement": "If two receipts accepted under the same key differ in any field, the signature checks were made on different JWS signing inputs: no field can be altered without altering the signed text.", "quantifier": "every pair of accepted receipts", "why_tests_cant": "pairs of unbounded texts", "anchors": ["librksv/verify_receipt.py:ReceiptVerifier.verify", "librksv/receipt.py:Receipt.toJWSString"]}
{"id": "C22", "title": "Conversion keeps a receipt verifiable", "statement": "If a receipt is accepted in JWS form, then the QR text produced from it is accepted by the same verifier and denotes the same receipt, provided its signature text is canonical base64url.", "quantifier": "every accepted JWS text", "why_tests_cant": "all accepted texts", "anchors": ["librksv/receipt.py:Receipt.toBasicCode", "librksv/verify_receipt.py:ReceiptVerifier.verifyBasicCode", "convert.py"]}
{"id": "C23", "title": "Certificate trust", "statement": "verifyCert succeeds exactly if some certificate on the path (the group certificate or an element of its chain) is stored in the key store under its serial with equal fingerprint, no earlier certificate on the path has its serial in the store, and every earlier certificate on the path carries a valid signature by its successor.", "quantifier": "every certificate, chain of any length and key store", "why_tests_cant": "unbounded chains", "anchors": ["librksv/verify.py:verifyCert"]}
{"id": "C24", "title": "Certificate errors are precise", "statement": "verifyCert reports a serial collision, a broken chain or an untrusted certificate exactly in the corresponding situation, and nothing else can happen.", "quantifier": "every certificate, chain of any length and key store", "why_tests_cant": "unbounded chains", "anchors": ["librksv/verify.py:verifyCert"]}
{"id": "C25", "title": "Chaining of accepted groups", "statement": "In every accepted receipt group, every receipt's chaining value is the truncated hash of the preceding receipt's exact JWS text; the first one's chains to the saved last receipt, the saved chaining override, the previous cluster register's start receipt, or the register ID.", "quantifier": "every accepted group of any length from every state", "why_tests_cant": "unbounded length", "anchors": ["librksv/verify.py:verifyGroup", "librksv/verify.py:verifyChain", "librksv/algorithms.py:R1.chain"]}
{"id": "C26", "title": "Turnover counter of accepted groups", "statement": "With a key given, in every accepted group each standard receipt's decrypted counter equals the previous counter plus the sums of all non-dummy receipts since, and the resulting state stores the final value.", "quantifier": "every accepted group", "why_tests_cant": "unbounded length", "anchors": ["librksv/verify.py:verifyGroup"]}
{"id": "C27", "title": "Receipt IDs are unique", "statement": "With the default backend, no receipt ID occurs twice in an accepted group nor (except for the very first receipt of an unchained register) was used before; the resulting used set is exactly the old set plus the group's IDs.", "quantifier": "every accepted group and used-ID set", "why_tests_cant": "unbounded length", "anchors": ["librksv/verify.py:verifyGroup", "librksv/verification_state.py:UsedReceiptIdsUnique"]}
{"id": "C28", "title": "Restore receipt rule", "statement": "In every accepted group: unsigned receipts never start a register; if a receipt was produced with a failed signature system and the following signed receipt is not a standard zero receipt then the one after it is a signed standard zero receipt or the data ends, in which case the state demands one next.", "quantifier": "every accepted group and state", "why_tests_cant": "unbounded histories", "anchors": ["librksv/verify.py:verifyGroup"]}
{"id": "C29", "title": "Stable identity and time", "statement": "In every accepted group all receipts have the register ID and the system type (closed/open) of their predecessor and timestamps never decrease.", "quantifier": "every accepted group and state", "why_tests_cant": "unbounded length", "anchors": ["librksv/verify.py:verifyGroup"]}
{"id": "C30", "title": "Initial receipt rule", "statement": "The first receipt accepted for a register without previous receipt is signed, has zero turnover, is neither dummy nor reversal, and becomes the recorded start receipt; in a cluster it must belong to a closed system like its predecessor.", "quantifier": "every accepted group on a fresh register", "why_tests_cant": "all inputs", "anchors": ["librksv/verify.py:verifyGroup"]}
{"id": "C31", "title": "Group acceptance is exactly the rule set", "statement": "verifyGroup accepts a group from a state with a given resulting state exactly if the declarative rules (signature or failure mark, chaining, counter, unique ID, restore, identity, date, initial receipt) hold for every position.", "quantifier": "every group, state, key and verifier", "why_tests_cant": "an if-and-only-if over unbounded lists", "anchors": ["librksv/verify.py:verifyGroup"]}
{"id": "C32", "title": "Tamper evidence", "statement": "Two accepted histories of a register that end in the same last receipt are equal, or an explicit collision of the truncated chain hash can be read off from them.", "quantifier": "every pair of accepted histories from fresh registers", "why_tests_cant": "pairs of unbounded histories", "anchors": ["librksv/verify.py:verifyGroup", "librksv/algorithms.py:R1.chain"]}
{"id": "C33", "title": "Splitting invariance", "statement": "Verifying two groups one after the other with state passing gives the same result (state, used IDs, error) as verifying their concatenation with the same verifier, for every split point.", "quantifier": "every group, split point and state", "why_tests_cant": "all split points", "anchors": ["librksv/verify.py:verifyGroup", "librksv/verify.py:verifyGroupsWithVerifiers"]}
{"id": "C34", "title": "Resuming from a saved state", "statement": "Verifying a first DEP, saving the state as JSON, loading it and verifying a second DEP for that register equals verifying the joint history in one go, provided the joint DEP has a single group or every group has its certificate (verifyDEP refuses any other joint DEP).", "quantifier": "every pair of DEPs and split point", "why_tests_cant": "crash/restart at all points", "anchors": ["librksv/verify.py:verifyDEP", "librksv/verification_state.py:ClusterState.writeStateToJson", "librksv/verification_state.py:ClusterState.readStateFromJson"]}
{"id": "C35", "title": "Speculative state equals verified state", "statement": "For every group accepted from a state, the state predicted without verification (fromDEPGroup) equals the state returned by verification, for every state that has both a start and a last receipt or neither (as new registers do, and as verification keeps it); for any other state they agree in the last receipt, the counter and the restore flag.", "quantifier": "every accepted group and state", "why_tests_cant": "used to run work packages in parallel; all groups", "anchors": ["librksv/verification_state.py:CashRegisterState.fromDEPGroup", "librksv/verification_state.py:CashRegisterState.updateFromDEPGroup", "librksv/verify.py:prepareVerificationTuples"]}
{"id": "C36", "title": "Parallel verification is sound and complete", "statement": "Verifying work packages independently from predicted states with separate used-ID sets and merging afterwards accepts exactly the histories the sequential verifier accepts whose first receipt has a fresh ID, with the same resulting register state and used IDs, whatever the number and sizes of packages and the order in which workers run.", "quantifier": "every list of packages and start state", "why_tests_cant": "all schedules and splits", "anchors": ["librksv/verify.py:verifyParsedDEP", "librksv/verify.py:prepareVerificationTuples", "librksv/verification_state.py:UsedReceiptIdsUnique.merge"]}
{"id": "C37", "title": "Verification without a pool", "statement": "verifyParsedDEP without a pool gives the same verdict for every nprocs.", "quantifier": "every DEP and nprocs", "why_tests_cant": "all DEPs", "anchors": ["librksv/verify.py:verifyParsedDEP", "librksv/verify.py:prepareVerificationTuples"]}
{"id": "C38", "title": "Chunk size independence", "statement": "verifyParsedDEP's verdict and resulting state do not depend on the chunk size and agree with verifyDEP.", "quantifier": "every DEP and chunk size", "why_tests_cant": "all chunk sizes", "anchors": ["librksv/verify.py:verifyParsedDEP", "librksv/verify.py:verifyDEP", "librksv/verify.py:packageChunkWithVerifiers"]}
{"id": "C39", "title": "Failed verification leaves the state usable", "statement": "If verification raises, the caller's state still has all previous register states and used IDs unchanged; at most one fresh empty register was appended, and only if a new register was requested.", "quantifier": "every DEP, state and index", "why_tests_cant": "all failure points", "anchors": ["librksv/verify.py:verifyDEP", "librksv/verification_state.py:ClusterState.getCashRegisterInfo"]}
{"id": "C40", "title": "Successful verification only touches its register", "statement": "After a successful verification every other register in the state is unchanged, used IDs only grew, and the number of registers grew by one exactly if a new register was requested.", "quantifier": "every DEP, state and index", "why_tests_cant": "all states", "anchors": ["librksv/verify.py:verifyDEP", "librksv/verification_state.py:ClusterState.updateCashRegisterInfo"]}
{"id": "C41", "title": "Cluster register indexing", "statement": "Register indices outside 0..n are rejected, index n and None append, and a new register is only added if the last one has a start receipt; the previous register's start receipt is handed to the verification.", "quantifier": "every state and index", "why_tests_cant": "all indices", "anchors": ["librksv/verification_state.py:ClusterState.getCashRegisterInfo", "librksv/verification_state.py:ClusterState.addNewCashRegister"]}
{"id": "C42", "title": "Starting from an arbitrary receipt", "statement": "If a history is accepted from some state with the key, and its first receipt is a standard receipt, then it is also accepted from the state fromArbitraryReceipt builds from that first receipt, ending in the same counter, last receipt and (eventually) restore flag.", "quantifier": "every accepted history", "why_tests_cant": "all histories", "anchors": ["librksv/verification_state.py:ClusterState.fromArbitraryReceipt"]}
{"id": "C43", "title": "Starting from an arbitrary start receipt", "statement": "A history accepted for a fresh cluster register is accepted from the state fromArbitraryStartReceipt builds from its first receipt.", "quantifier": "every accepted history of a fresh register", "why_tests_cant": "all histories", "anchors": ["librksv/verification_state.py:ClusterState.fromArbitraryStartReceipt"]}
{"id": "C44", "title": "State JSON round trip", "statement": "readStateFromJson(writeStateToJson(s)) equals s for every state and both used-ID backends.", "quantifier": "every state", "why_tests_cant": "all states", "anchors": ["librksv/verification_state.py:ClusterState.readStateFromJson", "librksv/verification_state.py:ClusterState.writeStateToJson"]}
{"id": "C45", "title": "State reading is total", "statement": "For every JSON value readStateFromJson either returns a state or raises a state parse error; every returned state has correctly typed fields.", "quantifier": "every JSON value", "why_tests_cant": "all JSON values", "anchors": ["librksv/verification_state.py:ClusterState.readStateFromJson", "librksv/verification_state.py:CashRegisterState.fromDict"]}
{"id": "C46", "title": "Sorted-ID backend", "statement": "The natural-order backend accepts exactly strictly increasing ID sequences (natural order); every sequence it accepts is free of duplicates, and merging package ranges in order gives the same verdict as checking one by one.", "quantifier": "every ID sequence", "why_tests_cant": "unbounded sequences", "anchors": ["librksv/verification_state.py:UsedReceiptIdsSortedNatural"]}
{"id": "C47", "title": "Key store map semantics", "statement": "After any sequence of put and delete operations the key store answers getKey/getCert like a finite map.", "quantifier": "every operation sequence", "why_tests_cant": "all histories", "anchors": ["librksv/key_store.py:KeyStore"]}
{"id": "C48", "title": "Key store JSON round trip", "statement": "Reading back the JSON written for a key store built with putPEMCert/putPEMKey yields the same store; the AES key is returned unchanged.", "quantifier": "every such store", "why_tests_cant": "all stores", "anchors": ["librksv/key_store.py:KeyStore.writeStoreToJson", "librksv/key_store.py:KeyStore.readStoreFromJson"]}
{"id": "C49", "title": "Key store reading is total", "statement": "For every JSON value readStoreFromJson either returns a store or raises a key store parse error.", "quantifier": "every JSON value", "why_tests_cant": "all JSON values", "anchors": ["librksv/key_store.py:KeyStore.readStoreFromJson"]}
{"id": "C50", "title": "Legacy key store IDs", "statement": "Key IDs survive the INI escaping (S:/U:/G:) if they contain none of the escape sequences s; u; g;.", "quantifier": "every key ID", "why_tests_cant": "all strings", "anchors": ["librksv/key_store.py:KeyStore.writeStore", "librksv/key_store.py:KeyStore.readStore"]}
{"id": "C51", "title": "Chunks partition the DEP", "statement": "DictDEPParser yields chunks whose groups, concatenated, are exactly the DEP's receipts in order, each with its group's certificates; no chunk is empty, every chunk has at most chunksize receipts and all but the last exactly chunksize.", "quantifier": "every well-formed DEP and chunk size", "why_tests_cant": "all sizes", "anchors": ["librksv/depparser.py:DictDEPParser._groupChunkGen", "librksv/depparser.py:DictDEPParser.parse"]}
{"id": "C52", "title": "nparts bounds the number of chunks", "statement": "With chunk size 0 and nparts > 1 DictDEPParser yields at most nparts chunks.", "quantifier": "every well-formed DEP and nparts > 1", "why_tests_cant": "all sizes", "anchors": ["librksv/depparser.py:DictDEPParser.parse", "librksv/depparser.py:totalRecsInDictDEP"]}
{"id": "C53", "title": "Incremental parser equals dictionary parser", "statement": "For every DEP document and chunk size n > 0 the file parser yields the same chunks as the dictionary parser, whatever the order of elements within a group, provided no key is repeated and the top-level keys are non-empty and free of dots; for chunk size 0 it yields the whole DEP as one chunk.", "quantifier": "every well-formed DEP document with such keys, every chunk size", "why_tests_cant": "all documents and sizes", "anchors": ["librksv/depparser.py:IncrementalDEPParser.parse", "librksv/depparser.py:FileDEPParser", "librksv/depparser.py:DictDEPParser"]}
{"id": "C54", "title": "Stream parser needs certificates first", "statement": "The stream parser yields the same chunks provided certificate elements precede the receipts in each group and no group lacks a certificate.", "quantifier": "every such DEP", "why_tests_cant": "all documents", "anchors": ["librksv/depparser.py:StreamDEPParser"]}
{"id": "C55", "title": "DEP parse errors", "statement": "For every JSON value DictDEPParser.parse either yields chunks or raises a DEP parse error.", "quantifier": "every JSON value", "why_tests_cant": "all JSON values", "anchors": ["librksv/depparser.py:DictDEPParser"]}
{"id": "C56", "title": "Work distribution keeps order", "statement": "getChunksForProcs and balanceGroupsWithVerifiers split work into batches of at most nprocs elements resp. at most nprocs packages whose concatenation is the original receipt sequence with the original verifiers; the packages differ only in the size of the last one. (balanceGroupsWithVerifiers raises ValueError if there are no receipts at all.)", "quantifier": "every work list and nprocs >= 1", "why_tests_cant": "all sizes", "anchors": ["librksv/verify.py:getChunksForProcs", "librksv/verify.py:balanceGroupsWithVerifiers"]}
{"id": "C57", "title": "Merging keeps receipts and merges only equal groups", "statement": "The merging stream outputs the same receipts in the same order; adjacent groups are merged exactly if certificate and certificate chain are equal.", "quantifier": "every list of groups", "why_tests_cant": "all group lists", "anchors": ["librksv/depexport.py:MergingDEPStream"]}
{"id": "C58", "title": "Export then parse", "statement": "Parsing an exported DEP yields the exported groups (empty groups dropped) with the same JWS texts and certificates.", "quantifier": "every list of groups", "why_tests_cant": "all group lists", "anchors": ["librksv/depexport.py:DEPExporter.export", "librksv/depparser.py:DictDEPParser"]}
{"id": "C59", "title": "Split then merge", "statement": "Splitting a DEP into parts and merging the parts yields the same receipts in order with the same certificates.", "quantifier": "every DEP and chunk size", "why_tests_cant": "all DEPs and sizes", "anchors": ["split.py", "merge.py", "librksv/depexport.py:MergingDEPStream"]}
{"id": "C60", "title": "Generated receipts are accepted", "statement": "Every history produced by a cash register with a correct signing key, whole-cent sums, distinct receipt IDs and non-decreasing dates, a standard zero receipt first and restore receipts after failures is accepted by the verifier, and the verifier's counter equals the register's.", "quantifier": "every operation sequence of the register", "why_tests_cant": "all histories including signature system failures", "anchors": ["librksv/cashreg.py:CashRegister.receipt", "librksv/sigsys.py:SignatureSystemWorking", "librksv/sigsys.py:SignatureSystemBroken", "librksv/verify.py:verifyGroup"]}
{"id": "C61", "title": "Cash register counter", "statement": "The register's counter after any sequence of receipts is the initial value plus the sums of all non-dummy receipts.", "quantifier": "every operation sequence", "why_tests_cant": "all histories", "anchors": ["librksv/cashreg.py:CashRegister.receipt"]}
{"id": "C62", "title": "Generated receipts parse back", "statement": "Every receipt the register returns reads back from its JWS text as the same receipt, and that text is the one the next receipt is chained to.", "quantifier": "every register call", "why_tests_cant": "all inputs", "anchors": ["librksv/cashreg.py:CashRegister.receipt", "librksv/receipt.py:Receipt.fromJWSString"]}
{"id": "C63", "title": "PEM wrapping", "statement": "Adding PEM headers breaks a one-line body into lines of at most 64 characters whose concatenation is the body.", "quantifier": "every body", "why_tests_cant": "all lengths", "anchors": ["librksv/utils.py:addPEMCertHeaders", "librksv/utils.py:exportCertToPEM"]}
{"id": "C64", "title": "BOM skipping", "statement": "skipBOM removes exactly one leading byte order mark and leaves every other content untouched.", "quantifier": "every file content", "why_tests_cant": "all contents", "anchors": ["librksv/utils.py:skipBOM"]}
{"id": "C65", "title": "Receipt verification errors are precise", "statement": "When a receipt that parses is rejected, the error tells why: a certificate that does not belong to the receipt, a receipt marked as unsigned (a standard null receipt reported separately), no key known for it, or an invalid signature, in this order of precedence.", "quantifier": "every parsed receipt and every verifier with a certificate or key store", "why_tests_cant": "all combinations of receipt, serial spelling and key set", "anchors": ["librksv/verify_receipt.py:ReceiptVerifier.verify"]}
{"id": "C66", "title": "Loading the AES key from a container", "statement": "Loading the turnover key from a cryptographic material container yields no key exactly when the container has none, and otherwise the bytes the stored text encodes; a text that encodes nothing is reported as an error.", "quantifier": "every container", "why_tests_cant": "all key texts, alphabets and paddings", "anchors": ["librksv/utils.py:loadKeyFromJson"]}
{"id": "C67", "title": "A key store read from a container holds exactly its entries", "statement": "Reading a container succeeds exactly when every entry is a certificate or public key that can be loaded, and then the store maps an ID to an object exactly when the last entry for this ID says so; nothing is dropped, invented or reordered.", "quantifier": "every container and every ID", "why_tests_cant": "all combinations of entries, repeated IDs and serial spellings", "anchors": ["librksv/key_store.py:KeyStore.readStoreFromJson"]}
{"id": "C68", "title": "Stream parser errors", "statement": "For every JSON document the stream parsers (with or without certificates) either parse it or raise a DEP parse error, never another exception.", "quantifier": "every JSON document and chunk size", "why_tests_cant": "all documents", "anchors": ["librksv/depparser.py:StreamDEPParser", "librksv/depparser.py:CertlessStreamDEPParser", "librksv/depparser.py:IncrementalDEPParser.parse"]}
{"id": "C69", "title": "Incremental chunks are bounded", "statement": "Whatever the input is, also one that turns out to be malformed, every chunk yielded by an incremental parser with chunk size n > 0 has at most n receipts, every chunk followed by another one has exactly n, and no chunk and no group in it is empty.", "quantifier": "every sequence of JSON events, well-formed or not, every chunk size, every source of certificates", "why_tests_cant": "all event sequences", "anchors": ["librksv/depparser.py:IncrementalDEPParser.parse", "librksv/depparser.py:DEPParserI"]}
{"id": "C70", "title": "The graphical tool and the library agree", "statement": "Loading a DEP in the graphical tool and pressing Verify ends with 'Valid DEP' exactly if verifyDEP accepts the same DEP for a register without history, with the same key store and AES key, regardless of how many worker processes the tool uses and how its receipts are distributed among them.", "quantifier": "every well-formed DEP, key store, AES key or none, and every number of processes >= 1", "why_tests_cant": "all DEPs, group layouts and process counts", "anchors": ["rktool.py:verifyDEP_prepare_Task", "rktool.py:verifyDEP_main_Task", "rktool.py:verifyDEP_finalize_Task", "rktool.py:VerifyDEPWidget"]}
{"id": "C71", "title": "Splitting and merging keeps the verdict", "statement": "Splitting a DEP into files and merging them again does not change whether the verifier accepts it, nor the register state after verification.", "quantifier": "every DEP whose groups have certificates with one chain per certificate and whose receipts are written canonically, every chunk size for splitting and merging, with and without merging of groups, every key store, AES key and starting state", "why_tests_cant": "all DEPs, sizes and states", "anchors": ["split.py", "merge.py", "librksv/depexport.py:MergingDEPStream", "librksv/verify.py:verifyDEP"]}
{"id": "C72", "title": "Receipts say what was ordered", "statement": "The receipt the register returns carries the register's ID, the ordered receipt ID, time, kind and signature system, the ordered amounts to the cent, and (for standard receipts) an encrypted counter that decrypts to the register's counter after the sale.", "quantifier": "every register state and every order that yields a receipt, with whole-cent amounts up to 2^51 cents and dates of years 1000 to 9999", "why_tests_cant": "all amounts (float formatting and parsing), IDs, dates and counters", "anchors": ["librksv/cashreg.py:CashRegister.receipt", "librksv/receipt.py:Receipt.__init__", "librksv/algorithms.py:R1.encryptTurnoverCounter"]}
{"id": "C73", "title": "Which documents are DEPs", "statement": "A JSON document is parsed without error exactly if it is a DEP: an object whose element Belege-Gruppe is a list of groups, each with the receipts as a list of texts, a certificate or none, and a list of certificates, with at least one receipt overall. All parsers agree on this for every chunk size.", "quantifier": "every JSON document, every chunk size and every parser", "why_tests_cant": "all documents, including those malformed in any way at any depth", "anchors": ["librksv/depparser.py:DictDEPParser.parse", "librksv/depparser.py:FileDEPParser", "librksv/depparser.py:StreamDEPParser", "librksv/depparser.py:IncrementalDEPParser.parse"]}
{"id": "C74", "title": "Processes and chunk size do not change the verdict of verify.py", "statement": "Running verify.py on a sequence of DEPs, passing the printed state on from one run to the next, ends the same way whatever number of processes and chunk size is given for each run: the same DEPs are accepted and the final states are equal.", "quantifier": "every sequence of DEPs, registers and key containers, every number of processes >= 1 and chunk size >= 0 for each run, every scheduling of the processes", "why_tests_cant": "all sequences, modes and schedules", "anchors": ["verify.py", "librksv/verify.py:verifyDEP", "librksv/verify.py:verifyParsedDEP", "librksv/depparser.py:IncrementalDEPParser.fromFd"]}
{"id": "C75", "title": "Editing a state file", "statement": "Each editing command of the state tool succeeds exactly if the edit is possible (the register exists; a register is added only after one with a start receipt) and then the file holds the state with just this edit done: nothing but the named register is changed. A command that fails leaves the file as it was. So after any sequence of commands, some of which may fail, the file holds the state with the successful edits done in order.", "quantifier": "every state file, every sequence of commands with every index (negative ones count from the end) and argument", "why_tests_cant": "all states and all command sequences of any length", "anchors": ["verification_state.py", "librksv/verification_state.py:ClusterState.addNewCashRegister", "librksv/verification_state.py:ClusterState.resetCashRegister", "librksv/verification_state.py:ClusterState.updateCashRegisterInfo"]}
{"id": "C76", "title": "Updating a register without verification", "statement": "For a DEP that verification accepts for a register, updating the register from this DEP with the state tool, which does not verify and does not read certificates, stores the same register state as verification does, with every chunk size.", "quantifier": "every DEP accepted for some register of some state, every chunk size", "why_tests_cant": "all accepted DEPs, of any length and grouping, and all ways to cut them into chunks", "anchors": ["verification_state.py", "librksv/verification_state.py:CashRegisterState.updateFromDEPGroup", "librksv/depparser.py:CertlessStreamDEPParser"]}
{"id": "C77", "title": "The key store tool", "statement": "A container edited with the key store tool behaves like a finite map from IDs to keys and certificates together with an optional AES key: after any sequence of commands on the same file, some of which may fail, the file holds the map and AES key that the successful commands make, a failed command changes nothing, list prints exactly the IDs in the map, each once, showSymmetricKey prints the AES key, and the INI output describes the same map.", "quantifier": "every container file, every sequence of commands and every input given to them", "why_tests_cant": "all containers and all command sequences of any length", "anchors": ["key_store.py", "librksv/key_store.py:KeyStore", "librksv/utils.py:loadB64Key"]}
{"id": "C78", "title": "Conversion between DEP and CSV", "statement": "convert.py json2csv prints a header and one row for each receipt of the DEP in order; csv2json makes a DEP with one group from the rows. A DEP converted to CSV and back has the same receipts in the same order, and a DEP accepted by verification is accepted with the same resulting state afterwards.", "quantifier": "every DEP, every CSV text, every chunk size", "why_tests_cant": "all documents and all contents of receipt fields; tests only cover harmless IDs", "anchors": ["convert.py", "librksv/depexport.py:CSVExporter", "librksv/depparser.py:CSVDEPParser", "librksv/receipt.py:Receipt.toCSV"]}
{"id": "C79", "title": "The receipt conversion tool", "statement": "receipt.py prints for each input line the same receipt in the output format, in order; at the first line that is no receipt in the input format it stops with an exception after having printed all earlier ones. Converting a file of receipts to another format and back gives the same file.", "quantifier": "every text on standard input, every pair of formats, both Python versions", "why_tests_cant": "all texts of any number of lines with any line ends", "anchors": ["receipt.py", "librksv/receipt.py:Receipt"]}
{"id": "C80", "title": "The receipt verification tool", "statement": "verify_receipt.py goes through all lines whatever they are, reports in order exactly the lines that are not genuine receipts (with the error of their verification and their index), and finally how many of how many are genuine.", "quantifier": "every text on standard input, every key store, every format", "why_tests_cant": "all texts; includes that no line whatever makes the program crash", "anchors": ["verify_receipt.py", "librksv/verify_receipt.py:ReceiptVerifier"]}
{"id": "C81", "title": "The receipt server and verification by URL", "statement": "receipt_host.py starts exactly if all receipts of its input can be read, and then serves under every hash the last receipt with that hash. An URL passes verification exactly if the server's answer is a receipt with a valid signature whose hash is the one in the URL, whatever the server answers; a receipt, served by receipt_host.py as the last one with its hash and with its signature in the usual base64 form, passes verification by its URL exactly if it passes verification itself.", "quantifier": "every input of the server, every URL, every behaviour of the server", "why_tests_cant": "all server answers including malicious ones, all sets of receipts including ones with equal hashes", "anchors": ["receipt_host.py", "librksv/url_receipt_helpers.py:getAndVerifyReceiptURL", "librksv/verify_receipt.py:verifyURLHash"]}
{"id": "C82", "title": "Extracting certificates", "statement": "cert_extract.py writes exactly one file for each serial number among the certificates of the DEP's groups with receipts, with the last certificate of that number, and this certificate can be read from the file.", "quantifier": "every DEP and every chunk size", "why_tests_cant": "all documents, all orders of keys and all ways to cut them into chunks", "anchors": ["cert_extract.py", "librksv/depparser.py:CertlessStreamDEPParser", "librksv/utils.py:addPEMCertHeaders"]}
{"id": "C83", "title": "What verify.py accepts, for the whole document", "statement": "verify.py accepts a DEP exactly if the receipts of all its groups, read in order and each checked with the verifier of its own group (the key store, or the group's certificate if it has a trust path to the key store), obey the rules of the regulation from the state of the selected register on; it then writes the state after the last receipt. In particular in an accepted DEP every receipt is authentic or marked as unsigned, each receipt is chained to the one before even across groups, IDs are unique, the turnover counter adds up, and failures end with a zero receipt. The option for the register selects a new one, the last one or the one with the given number.", "quantifier": "every DEP whose groups with receipts all have a certificate or of which only one has receipts (others are treated in C38), with names of extra elements that have no dots; every state written by verify.py, every key store, number of processes and chunk size", "why_tests_cant": "all documents, histories and modes; both directions of an equivalence", "anchors": ["verify.py", "librksv/verify.py:verifyParsedDEP", "librksv/verify.py:verifyGroup", "librksv/verification_state.py:ClusterState.updateFromVerification"]}
{"id": "C84", "title": "From the register to verify.py", "statement": "If a cash register whose owner obeys the rules makes any number of receipts, and these are exported in order into any number of DEPs with any groups, then verify.py accepts all these DEPs one after the other, each continuing from the state file of the one before. In the end the state file holds the register's start receipt, last receipt and turnover counter and all receipt IDs.", "quantifier": "every history of orders, every signature system, every way to cut the receipts into DEPs and groups, every mode of each run, every state before", "why_tests_cant": "all histories, cuts and modes", "anchors": ["librksv/cashreg.py:CashRegister.receipt", "librksv/depexport.py:DEPExporter", "verify.py", "librksv/verification_state.py"]}
{"id": "C85", "title": "Clusters of registers (closed systems)", "statement": "If each register of a cluster is chained to the start receipt of the one before, and all obey the rules, then verify.py accepts the DEPs of all registers one after the other, and the state file in the end lists the registers with their start receipts, last receipts and counters.", "quantifier": "every number of registers, each with any history, cut into DEPs in any way", "why_tests_cant": "unbounded number of registers and histories", "anchors": ["librksv/cashreg.py", "verify.py", "librksv/verification_state.py:ClusterState", "librksv/verify.py:verifyGroup"]}
{"id": "C86", "title": "Which orders a register carries out", "statement": "A cash register makes a receipt exactly if the texts of the order have the forms a receipt may have, the signature service (if any) answers with something of the form of a JWS, and, for receipts that are neither training nor reversal receipts, the key has 32 bytes and the new turnover counter fits into the bytes set aside for it. A list of orders is carried out exactly if this holds of each order with the counter at that point.", "quantifier": "every register, every order, every list of orders, every answer of a signature service", "why_tests_cant": "all orders, counters and answers of the service", "anchors": ["librksv/cashreg.py:CashRegister.receipt", "librksv/sigsys.py", "librksv/receipt.py:Receipt"]}
{"id": "C87", "title": "demo.py prints DEPs that verify.py accepts", "statement": "Whatever amounts, training and reversal flags are drawn, and whatever the clock shows as long as it is not put back, demo.py prints a DEP with as many receipts as it was asked for, and verify.py accepts this DEP with a key store that has the key of the signature device, as long as the turnover cannot leave the range of the counter.", "quantifier": "every outcome of the random numbers, every clock, every number of receipts up to 2^63 / 500000, every key, both kinds of signature devices, every mode of verify.py and both ways to keep used IDs", "why_tests_cant": "all random outcomes and numbers of receipts", "anchors": ["demo.py:receiptGen", "librksv/cashreg.py:CashRegister", "librksv/depexport.py:JSONExporter", "verify.py"]}
{"id": "C88", "title": "Registers of a cluster side by side", "statement": "If the registers of a cluster work side by side, each chained to the start receipt of the one before and obeying the rules, and no receipt ID is used twice, then verify.py accepts their DEPs in every order in which the DEPs of each register come one after the other and the registers are started one after the other. The state file in the end lists the registers with their start receipts, last receipts and counters, and all receipt IDs.", "quantifier": "every number of registers and DEPs, every history of each register, every interleaving of the DEPs, every mode of each run", "why_tests_cant": "all interleavings and histories", "anchors": ["verify.py", "librksv/verification_state.py:ClusterState", "librksv/verify.py:verifyParsedDEP", "librksv/cashreg.py"]}
{"id": "C89", "title": "Test specifications that obey the rules make DEPs that verify.py accepts", "statement": "If runTest succeeds for a test specification whose receipts obey the rules (no falsifications, first receipt of a register signed and zero, restoring null receipts after failures, dates not put back, IDs not repeated) and whose keys fit the certificates, then there are as many DEPs as the specification asks for, and verify.py, started with an empty state and called for one DEP after the other with the register the specification means, accepts all of them. In the end the state has one entry per register, with the sum of the amounts as counter, and knows the IDs of all receipts.", "quantifier": "every specification (number of receipts, DEPs, registers, devices, certificate chains, groups), closed and open systems, every counter size, every mode of each run of verify.py", "why_tests_cant": "this is the machine the test cases are made with; only some dozens of specifications exist", "anchors": ["librksv/run_test.py:runTest", "librksv/cashreg.py:CashRegister", "librksv/depexport.py:DEPExporter", "librksv/key_store.py:KeyStore", "verify.py"]}
{"id": "C90", "title": "DEPs of a test case say which DEPs they belong to", "statement": "Each DEP made by runTest has the turnover asked for with its last receipt as 'Umsatz-gesamt'. A DEP that starts a register is not marked as 'Fortgesetztes-DEP' and refers to the DEP with the start receipt of the register before as 'Vorheriges-DEP'; every other one is marked and refers to the last DEP of its own register. From these elements the test driver finds the register of every DEP.", "quantifier": "every test specification runTest succeeds for (falsified ones included, apart from override), every order of registers", "why_tests_cant": "all orders in which registers are started and continued", "anchors": ["librksv/run_test.py:runTest", "librksv/test/test_verify.py:testVerify"]}
{"id": "C91", "title": "The tools stop at inputs that are no DEPs", "statement": "split.py, merge.py, convert.py and receipt_host.py end without an error exactly if the documents they are given are DEPs with at least one receipt, all of whose receipts can be read; cert_extract.py, which does not read receipts, exactly if the document is a DEP with receipts. Updating a register with the state tool from any other document fails and leaves the state file as it was, and verify.py accepts no other document.", "quantifier": "every JSON document (with ordinary keys), every chunk size, every mode", "why_tests_cant": "all malformed documents and all positions a chunk can end in before the defect", "anchors": ["split.py", "merge.py", "convert.py", "receipt_host.py", "cert_extract.py", "verification_state.py", "verify.py", "librksv/depparser.py:IncrementalDEPParser"]}
{"id": "C92", "title": "The reported error is the first rule that is broken", "statement": "When a DEP is refused, the exception that is reported is the one of the first fault in it: receipts are considered in order, and within a receipt the rules are considered in one fixed order of precedence (text that is no receipt, certificate and signature, restore receipts, rules of start receipts, repeated receipt ID, register ID, system type, date, chaining value, turnover counter). Every exception is reported exactly for this reason; a DEP without fault is accepted.", "quantifier": "every list of receipts, every verification state, set of used IDs, certificate or key, every DEP (one process, no chunks)", "why_tests_cant": "every combination of faults in every position; a test sees one exception for one falsified receipt", "anchors": ["librksv/verify.py:verifyGroup", "librksv/verify.py:verifyParsedDEP", "verify.py", "librksv/verify_receipt.py:verifyReceipt"]}
{"id": "C93", "title": "Test DEPs hold what the test case specifies", "statement": "The DEPs made for a test case hold one receipt for each instruction, in the same order, in as many DEPs and in the groups the specification asks for, each made by the register whose turn it is. Every field of a receipt says what its instruction asks for, or the falsified value if there is one: IDs, date, amounts, the turnover counter of that register (counted from the last falsified one, in as many bytes as chosen), the chaining value, the signature device, and a signature of it that verifies or the failure mark. Groups carry the certificates of the device.", "quantifier": "every specification whose run succeeds: any number of instructions, registers, DEPs and devices, any falsified values, either kind of system, any counter size given", "why_tests_cant": "the test cases are the specifications themselves; nothing checks that the DEPs made from them contain what they say, for any specification", "anchors": ["librksv/run_test.py:runTest", "librksv/cashreg.py:CashRegister.receipt", "librksv/cashreg.py:MangledReceipt", "librksv/depexport.py:DEPExporter"]}
{"id": "C94", "title": "Falsified receipts are refused with the exception announced", "statement": "If a cash register is told to falsify one property of a receipt of an otherwise rule-abiding history (signature, header, algorithm, certificate serial or key ID, system type, receipt ID, register ID, date, chaining value, amounts, turnover counter, encrypted counter, or the whole text) and signs it all the same, then the receipts up to it, followed by anything, are refused, with the exception that belongs to that property. If nothing is falsified the receipt is the one made ordinarily.", "quantifier": "every history of a register obeying the rules, every position, every falsified value that differs from the right one, every signature key, anything following", "why_tests_cant": "the test cases falsify particular receipts with particular values at particular positions", "anchors": ["librksv/cashreg.py:CashRegister.receipt", "librksv/cashreg.py:MangledReceipt", "librksv/verify.py:verifyGroup"]}
{"id": "C95", "title": "The test driver reports success exactly for test cases that are right", "statement": "For a test case that follows the rules and expects no exception, whose registers are started in turn, the test driver reports success exactly if the turnover given at the end of each DEP (unless it is zero) is what the instructions add to the counter of its register. This does not depend on the chunk size it draws, the number of processes or which of them finishes first. If it reports success for any test case without an expected exception, all DEPs were accepted one after the other with the right turnovers; if it reports success for one with an expected exception, a DEP was refused with it and those before were accepted. A test case that follows the rules is not successful if an exception is expected.", "quantifier": "every test specification (any number of instructions, registers, DEPs, devices, open and closed systems, any turnovers given), every random draw, process count and order of results, every expected exception", "why_tests_cant": "this is the test driver itself: its verdicts on finitely many test cases do not show that it never passes a wrong implementation or fails a right one", "anchors": ["librksv/test/test_verify.py:testVerify", "librksv/test/test_verify.py:_testVerify", "librksv/test/verification_proxy.py:LibRKSVVerificationProxy", "librksv/run_test.py:runTest"]}
{"id": "C96", "title": "A test case with a falsified receipt is refused at that receipt with the exception announced", "statement": "Take a test case that follows the rules and falsify one property of the receipt of its last instruction; any instructions may follow. Whatever DEPs the test case runner writes for this, the key store is the same, the DEPs before the one with the falsified receipt are the same and are accepted one after the other, and the DEP with the falsified receipt is refused with the exception that belongs to the property falsified (or, if the receipt can no longer be read, to that). The test driver reports success for it only if that exception is expected, and ends with that exception when it verifies the DEPs as they are, provided the test case passes up to the falsified receipt.", "quantifier": "every test specification (any number of instructions, registers, DEPs, devices, open and closed systems, groups with and without certificates), every instruction of a rule-abiding prefix that a working device signs, every falsified value that differs from the right one, all further instructions including other falsifications, every expected exception, random draw and process count of the driver", "why_tests_cant": "the project's test cases each falsify one receipt at one position of one specification", "anchors": ["librksv/run_test.py:runTest", "librksv/cashreg.py:CashRegister.receipt", "librksv/verify.py:verifyParsedDEP", "librksv/verification_state.py:ClusterState", "librksv/test/test_verify.py:testVerify"]}
{"id": "C97", "title": "Parsers agree on texts with repeated keys, or refuse them", "statement": "A JSON text may repeat a key in an object. The incremental parsers for files accept a text exactly if none of the elements of a DEP is repeated in it (the list of groups, and in each group the receipts, the certificate and the certificate chain; other elements may be repeated) and the value json.load makes of it is a DEP with receipts; they then yield the same chunks as the parser that reads the whole file. The parser that reads the whole file takes the last of several lists of groups and does not notice the others, so texts with repeated elements are treated differently depending on the chunk size.", "quantifier": "every JSON text, with any keys repeated any number of times in any order, every chunk size and number of parts", "why_tests_cant": "the tests have no texts with repeated keys; which of them are harmless is a statement about all texts", "anchors": ["librksv/depparser.py:IncrementalDEPParser", "librksv/depparser.py:FileDEPParser", "librksv/depparser.py:CertlessStreamDEPParser", "librksv/depparser.py:FullFileDEPParser", "librksv/utils.py:readJsonStream"]}
{"id": "C98", "title": "The verdict of the graphical tool under every order of events", "statement": "Whatever the user does and in whatever order worker processes finish and their answers are delivered, the graphical tool shows 'Valid DEP' only if some DEP it was given earlier was verified as valid, and if the user waits for outstanding answers before loading another DEP, only if the DEP now shown is one verifyDEP accepts with the key store and AES key at the time Verify was pressed. Pressing Verify when nothing is outstanding leads to an end after finitely many steps of background work: with 'Valid DEP' exactly if the DEP is accepted, otherwise with exactly one error message, unless a task ends with an exception that is not about the DEP; if the AES key has the right length and amounts are numbers this does not happen.", "quantifier": "every sequence of user actions (load any file, type any key, change the key store, press the button), completions of tasks in any order and deliveries of callbacks in any order; every number of processes >= 1", "why_tests_cant": "the verdict depends on the schedule of worker processes and of callbacks on the main thread, and on the history of user actions", "anchors": ["rktool.py:VerifyDEPWidget", "rktool.py:VerifyDEPWidget.verify", "rktool.py:VerifyDEPWidget.verifyAbort", "rktool.py:VerifyDEPWidget.loadCb", "rktool.py:verifyDEP_prepare_Task", "rktool.py:verifyDEP_main_Task", "rktool.py:verifyDEP_finalize_Task"]}
{"id": "C99", "title": "The receipt window of the graphical tool", "statement": "The receipt tab of the graphical tool opens a window exactly for texts that are receipts in the chosen format (for a URL: if the server returns the QR code of a receipt whose hash is in the URL), with the receipt read; for other texts it displays an error, except that reading an OCR code under Python 3 may end the application. In the window, 'Valid Signature' is only shown for receipts with a valid signature under a key in the key store at the last press of Verify, whatever happens in between and afterwards; receipts of a failed signature device always say 'No Signature' and cannot be verified. Pressing Verify always gives an answer after two steps of background work: the verdict, or exactly one error with all else as before. The turnover counter displayed is TRA or STO for training and void receipts, and otherwise the encrypted text or the decryption under an AES key that was given in this window; giving a key that fits shows it, and any other text shows exactly one error and changes no displayed value. Nothing else ends the application but a key file that raises an exception not caught.", "quantifier": "every text, format, server answer and key store, and every sequence of user actions, task completions and callbacks in the window", "why_tests_cant": "the verdict depends on the order of user actions, worker results and callbacks, and the claims are about every receipt text", "anchors": ["rktool.py:VerifyReceiptWidget.viewReceipt", "rktool.py:ViewReceiptWidget", "rktool.py:ViewReceiptWidget.verify", "rktool.py:ViewReceiptWidget.verifyCb", "rktool.py:ViewReceiptWidget.setKey", "rktool.py:verifyReceiptTask"]}
{"id": "C100", "title": "The key store tab of the graphical tool", "statement": "After every sequence of actions, the key store tab lists exactly the IDs of the keys that were added (from PEM files, DEPs or an imported container) and neither deleted nor replaced since, each once, under the certificates if it has one and else under the public keys, and this is the key store receipts and DEPs are verified with; receipts are only found genuine with a key from something the user chose. What does not work is reported by exactly one error and changes neither keys nor list. Importing an exported key store gives the same keys and list. No action ends the application.", "quantifier": "every sequence of actions (delete, choose key file, enter ID, cancel, choose certificate file, add certificate of a DEP, import any JSON value), all texts and files", "why_tests_cant": "the claim is an invariant over all histories and all contents of files", "anchors": ["rktool.py:KeyStoreWidget.buildKSTree", "rktool.py:KeyStoreWidget.delKey", "rktool.py:KeyStoreWidget.addPubKeyCbKey", "rktool.py:KeyStoreWidget.addPubKeyCbId", "rktool.py:KeyStoreWidget.addCertCb", "rktool.py:KeyStoreWidget.importKeyStoreCb", "rktool.py:KeyStoreWidget.exportKeyStoreCb", "rktool.py:VerifyDEPWidget.addCert"]}
{"id": "C101", "title": "What is sent between processes arrives, and verification ends", "statement": "If a DEP is verified with several processes, the keys and certificates the workers verify with are those of the main process, an exception raised in a worker arrives in the main process with its class, its message and the receipt it names, and the tool ends: with every key container, DEP and state it prints a state or an error.", "quantifier": "every exception class of the library, all arguments, all translations; all key containers, DEPs, states, numbers of processes and chunk sizes", "why_tests_cant": "an exception that cannot be restored shows as a process that waits for ever, only for the inputs that raise it in a worker; tests compare the outcomes of runs that end", "anchors": ["librksv/utils.py:RKSVException.__reduce__", "librksv/utils.py:InvalidKeyException", "librksv/receipt.py:ReceiptException", "librksv/verify.py:DEPReceiptException", "librksv/verify.py:verifyParsedDEP", "librksv/utils.py:cert_getstate", "librksv/utils.py:pubkey_getstate", "librksv/verification_state.py:CashRegisterState.updateFromDEPGroup", "verify.py"]}
{"id": "C102", "title": "Receipts by their URLs", "statement": "receipt.py with the input format url prints for every URL the receipt the server returned for it, and stops at the first URL for which the server returns none, telling whether there was no answer or one that is not a receipt. verify_receipt.py url goes through all URLs the server answers, whatever it answers, and reports exactly those that do not lead to a receipt with a valid signature whose hash is in the URL. If the server is receipt_host.py, started with a file of receipts, fetching the URLs of these receipts gives the same file, and verifying the URLs gives the same report as verifying the file.", "quantifier": "every list of URLs, every server (a function from URLs to answers), every key store, every file of receipts", "why_tests_cant": "the server is arbitrary and the number of receipts is not bounded", "anchors": ["receipt.py:INPUT_FORMATS", "verify_receipt.py:INPUT_FORMATS", "receipt_host.py:get_url_hash", "librksv/url_receipt_helpers.py:getBasicCodeFromURL", "librksv/url_receipt_helpers.py:getAndVerifyReceiptURL"]}
{"id": "C103", "title": "Time stamps", "statement": "A text is accepted as the time stamp of a receipt exactly if it is of the form year-month-dayThour:minute:second (four digits for the year, one or two for the others; a space may replace the first digit of a day) and names a second of the Gregorian calendar in the years 1 to 9999; it is then read as this time. One time stamp is taken to be earlier than another exactly if the clock gets from the first to the second.", "quantifier": "every text of ASCII characters, every two times", "why_tests_cant": "all texts and all pairs of times; mistakes hide at leap years and ends of months", "anchors": ["librksv/receipt.py:Receipt.__init__", "librksv/verify.py:verifyGroup", "librksv/cashreg.py:CashRegister.receipt"]}
{"id": "C104", "title": "The graphical tool on Android", "statement": "On Android, where tasks run in threads of the application that cannot be stopped reliably, 'Valid DEP' is shown only after the button was pressed while a DEP was shown that is accepted with the key store and AES key of that moment, and it is about the DEP shown. If every thread can be stopped, the tab behaves as with a pool of processes; threads that cannot be stopped come to an end by themselves, and if the button is pressed when none is left, the answer is the right one.", "quantifier": "every sequence of actions of the users, ends of threads and deliveries of callbacks, and every choice of threads that survive an abort", "why_tests_cant": "schedules of threads and of asynchronous exceptions cannot be enumerated or forced", "anchors": ["rktool.py:ThreadPool", "rktool.py:ThreadWithExc.raiseExc", "rktool.py:__thread_apply__", "rktool.py:VerifyDEPWidget.verify", "rktool.py:VerifyDEPWidget.verifyAbort", "rktool.py:RKToolApp.killBackgroundProcesses"]}
{"id": "C105", "title": "An interrupted export cannot be mistaken for a complete one", "statement": "The JSON text written for a DEP (by convert.py csv2json, split.py, merge.py, demo.py) stands for exactly the document with its groups, whatever characters the receipts contain, and different DEPs have different texts. If a receipt or a group cannot be read, the program ends with the exception of the first such one, and the text written until then is the text of the document with exactly the receipts read before, except for missing closing brackets; it is never a JSON text, so that no JSON parser accepts it as a shorter DEP. Every file split.py writes before the interrupted one is complete.", "quantifier": "every sequence of groups and receipts, and every point at which reading fails", "why_tests_cant": "failures can occur at every receipt of DEPs of every size; that no prefix is a JSON text is a statement about all of them", "anchors": ["librksv/depexport.py:FakeListIterator", "librksv/depexport.py:DEPExporter.export", "librksv/depexport.py:JSONExporter.export", "librksv/depexport.py:DEPExporterI.fromSingleGroup", "librksv/depparser.py:receiptGroupAdapter", "convert.py", "split.py", "merge.py", "demo.py"]}
{"id": "C106", "title": "An interrupted CSV export can be told from a complete one", "statement": "convert.py json2csv prints the header and, in order, one row for each receipt; if a receipt or a part of the DEP cannot be read, it ends with an exception, and what was printed are the header and the rows of receipts before. Interrupted output can be told from complete output, and convert.py csv2json does not accept it as a complete file.", "quantifier": "every document on standard input, every chunk size and every point at which reading fails", "why_tests_cant": "failures can occur at every receipt of DEPs of every size", "anchors": ["librksv/depexport.py:CSVExporter.export", "librksv/depparser.py:receiptGroupAdapter", "convert.py", "librksv/receipt.py:Receipt.toCSV", "librksv/receipt.py:Receipt.fromCSV"]}
{"id": "C107", "title": "A file cut off while it was written is not taken for a complete one", "statement": "When verification_state.py writes a state file or key_store.py writes a key store and the program or the machine stops at any point, the file afterwards has its old contents or its new contents; at least it never has contents that another run of the tools could read as a different state or key store. The same holds for JSON printed by a program that is killed at any character: what was printed is either complete or no JSON text.", "quantifier": "every state, every key store, every old contents of the file and every point at which writing stops", "why_tests_cant": "the crash can come after every single character, for documents of every size and shape", "anchors": ["verification_state.py", "key_store.py", "run_test.py", "librksv/verification_state.py:ClusterState.writeStateToJson", "librksv/key_store.py:KeyStore.writeStoreToJson"]}
