# Formal model of danhhz/zeropb in Lean 4 - design

Everything is under `lean/Verif`. Source line numbers in comments refer to `/repo`.

## 1. Trusted base

* Lean 4.33.0's kernel. No axioms are added and nothing compiled is trusted: concrete runs use
  `decide +kernel`, i.e. evaluation by the kernel itself. The axioms of every property theorem are listed in
  section 6; they are at most `propext`, `Classical.choice`, `Quot.sound`. Mathlib is not used.
* The reading of the Go source: each model definition cites the lines it models and says where it simplifies. For
  `offsets.go` and `zeropb.go` this is reduced (C62) to the lexer and the interpreter for a subset of Go in `GoSrc/Syntax` and
  `GoSrc/Sem`: the model functions are proved equal to what the interpreter makes of the text of the files. For generated
  files the same is done for every file the generator can produce (C63), with the lexer of `GoSrc/Text` and the interpreter in `GoSrc/GenSem`,
  which resolves methods, types and variables by name in the package. For `generate.go`, `stringtree.go` and the two `main.go` it is
  done with `GoSrc/ToolSyntax` and `GoSrc/ToolSem` (C64), for the hand-written files beside the generated code with `GoSrc/StrSyntax` and
  `GoSrc/StrSem` (C68).
* That the text of the Go files in `GoSrc/Text`, `GoSrc/ToolText` and `GoSrc/StrText` is that of `/repo`: `scripts/check_sources.py` compares them line by line.
* That a Go compiler accepts what `GoSrc/Check` accepts (C69), and rejects the packages of `C69_false_unclean`.
* The reading of the Go language and of `encoding/binary` as of Go 1.12 (the version
  pinned by `go.mod` and `.circleci/config.yml`): slices, `append`, `copy`, map iteration,
  64-bit wrapping `int`/`uint64`, `Uvarint`, `PutUvarint`, `Varint`, `PutVarint`,
  `LittleEndian`. These are modelled in `Verif/Go`, not axiomatised. (C40 says which results carry over to
  the `Uvarint` of later Go versions.)
* A 64-bit platform (`int` is 64 bits).
* For the generator: `strings.Map`, `strings.ReplaceAll`, `strings.LastIndex`, `strings.Repeat`, `strconv.Itoa`,
  `strings.Builder` behave as documented (modelled in `Gen/StringTree`, `Gen/Generate`); package `unicode` is an
  arbitrary parameter; text is a list of characters, which stands for valid UTF-8.
* For C41, C42, C44, C51, C52: that the small description of Go declarations in `Spec/GoDecls` (what a declaration
  declares, what it refers to, how it is written) says about Go what it should. The Go compiler and type checker
  are not modelled.
* The independent specifications in `Spec/*`, which is what the theorems are stated in.

## 2. Layers

| module | content |
|---|---|
| `Go/Prim` | bytes, `uint64` as `BitVec 64`, `int` as wrapped `Int`, slices by value (contents, bytes between len and cap), failure kinds, loops that may diverge |
| `Go/Varint` | `encoding/binary` |
| `Model/Offsets` | `offsets.go` |
| `Model/Access` | all getters and setters, `setSingle`, `appendSingle` of `zeropb.go` |
| `Model/Decode` | `Decode`, `FindNextField`, `fieldDataSize` |
| `Model/Message` | the methods of a generated struct, for an arbitrary schema |
| `Model/Text` | `golden/testzeropb/string.go`, with number formatting and quoting as parameters |
| `Model/TestMessage` | the schema of `golden/testzeropb/test.zeropb.go` |
| `Mem/Model` | the same API on a heap: backing arrays, aliasing, capacities, shared overflow maps |
| `Mem/Alloc`, `Mem/AllocMap` | when the heap model allocates, and when an overflow map |
| `Mem/Heap`, `Refine`, `Read`, `Grow` | frames, and the refinement of the heap model to the value model: each heap operation computes what the value operation computes |
| `Gen/StringTree`, `Gen/Generate` | `generate/stringtree.go`, `generate/generate.go`: the generator as a function from descriptors to text |
| `Gen/Main` | `cmd/*/main.go`: the plugin processes, with the operating system and the protobuf library as parameters |
| `Gen/Golden` | descriptors of `test.proto` and `raft.proto` and the golden files; the kernel checks that the model produces exactly the committed golden text |
| `Spec/Wire`, `Spec/Scan`, `Spec/Kind` | independent specifications: protobuf wire format, record lists, field types and values, schemas |
| `Spec/Std` | independent specification of an ordinary protobuf library: message structs, Unmarshal with merging, Marshal |
| `Spec/GoExpr` | the Go specification of operators: trees over tokens, precedence; a reader, and the proof that tokens can be read in one way only |
| `Spec/GoFile`, `Spec/GoDecls` | independent specification of generated Go declarations and files |
| `GoSrc/Syntax`, `OffsetsGo`, `ZeropbGo`, `Text` | syntax trees of all of `offsets.go` and `zeropb.go`, the text of the files, a lexer; the kernel checks that the tokens of the text are those of the trees |
| `GoSrc/Sem` | an interpreter for those trees on the heap of `Mem/Model` |
| `GoSrc/Step`, `Offs`, `Getters`, `Scan`, `Dec`, `Setters`, `SetFields` | for each function: interpreting its tree is the model function |
| `GoSrc/GenSyntax`, `GenText` | syntax trees of the declarations of a generated file; for all of them, the tokens of the generated text are those of the trees |
| `GoSrc/GenSem`, `GenRun`, `GenLookup` | an interpreter for a package of such trees, which calls `GoSrc/Sem` for package zeropb; for each method: interpreting its tree is the model function |
| `GoSrc/ToolSyntax`, `ToolId`, `ToolGo`, `ToolText` | syntax trees and text of all of `generate.go`, `stringtree.go`, both `main.go`, and of what they use of `descriptor.pb.go` |
| `GoSrc/ToolSem` | an interpreter for those trees (a heap of structs, interface values, type switches, `range`, multiple results); the other packages they import are parameters or as in `Gen/` |
| `GoSrc/ToolStep`, `ToolWrite`, `ToolFns`, `ToolGen`, `ToolFile`, `ToolMain` | for each function: interpreting its tree is the model function of `Gen/` |
| `GoSrc/StrSyntax`, `StrText`, `StrSem` | syntax trees and text of `golden/testzeropb/string.go` and both `internals.go`; an interpreter for them (writers, `strings.Builder`, `fmt`'s four verbs, `panic(err)`, local structs and iterators), which runs generated methods with `GenSem` and package `zeropb` with `Sem` |
| `GoSrc/StrRun`, `StrWrite`, `StrCall` | interpreting `WriteText` and `Text` is the model of `Model/Text` |
| `Spec/Plugin` | the messages of protoc and its plugins on the wire: which bytes say which request and response, and which parts of a request do not count |
| `GoSrc/Group` | the expressions of all four syntaxes as trees of `Spec/GoExpr` |
| `GoSrc/Check` | the static semantics of the subset of Go that generated files use: scopes, types, assignability, addressability, used variables and imports (C69) |
| `GoSrc/CheckGen` | generated declarations pass the check |
| `Conc/Prog` | goroutines as programs of single memory accesses, their interleavings, data races |
| `Conc/Sem`, `Conc/Gen` | the interpreters of `GoSrc/Sem` and `GoSrc/GenSem` again, access by access; loops are cut off after a given number of rounds |
| `Conc/Sim`, `Conc/GenSim` | when the interpreter of `GoSrc` returns, the one of `Conc` does the same, if enough rounds are allowed |
| `Conc/Halt`, `Conc/GenHalt`, `Conc/SimFail`, `Conc/GenSimFail`, `Conc/ReadHalt`, `Conc/SetHalt`, `Conc/HoldHalt` | the memory at the moment of a panic; the access-by-access interpreter panics exactly where the statement-level one does |
| `Conc/Safe`, `Conc/GenSafe` | which locations every function of the source and every generated method accesses |
| `Conc/Step`, `Conc/Trace` | the accesses of a run as a list of events |
| `Conc/Cost` | each function of the source as a program of accesses, in closed form |
| `Conc/Access`, `Conc/AccessDec`, `Conc/GenAccess` | the accesses of the getters, of `Decode` and `FindNextField`, and of the generated methods, one after the other |
| `Conc/SetProg`, `Conc/SetAccess`, `Conc/Written`, `Conc/GenWrites` | the setters as programs of accesses in closed form, what they read and write, and the generated setters |
| `Proof/*` | lemmas |
| `Props/*` | the property theorems, each with a concrete instance that meets its hypotheses |

`Props/Core` C01-C11, `Tree` C12, `Decode` C13-C16, C27, C29, C35-C40, `Index` C17-C20, `Bytes` C21-C23, C28,
C30, C34, `Prim` C24-C26, C49, `Mem` C31, `Alias` C32-C34, C48, `Copy` C48, C50, `Alloc` C35, C53, `Exact` C54, `Cost` C55, `Text` C56, `Main` C57, `Encoded` C58, `Local` C59, `Interop` C60, `Sched` C61, `Source` C62, `SourceGen`, `SourceHistory` C63, `SourceTool` C64, `EndToEnd` C65, `Programs` C66, `Races` C67 (over `Conc/*`), `SourceText` C68, `Compiles` C69, `Reuse` C70, `Accesses` C71, `Writes` C72, `Fields` C73, `SetCost` C74, `Untrusted` C75, `Recover` C76, `Peek` C77, `Overwrite` C78, `Join` C79, `Guarded` C80, `Await` C81, `Versions` C82, `Forward` C83, `Grouping` C84, `Api` C85, `Stdio` C86, `Readme` C08, C19, `Gen` C43, C45-C47,
`GenMsg`, `GenSchema`, `GenOut` C41, C42, C44, C51, C52, `Big` the instances with messages over 65535 bytes.

### Modelling decisions

* A Go panic is a value `Except.error p`. Nontermination is the value `.error .diverge`:
  a Go `for` loop is `iterate step s`, defined (classically) as the result of the first
  number of iterations that finishes, or `.diverge` if there is none. So "terminates" is
  part of every theorem that says a call returns `.ok`.
* After a panic nothing is said about the state: `Except.error` drops the partially updated struct.
* Runtime nondeterminism is an explicit argument `rt : Rt`: how `append` chooses a new
  capacity (and what the new spare bytes contain), and in which order a map is ranged over.
  Theorems quantify over all `rt`, and histories may use a different `rt` at every step.
* Go cannot build a slice of 2^63 bytes or more; `append` models this as the failure
  `lenOutOfRange`. Theorems either assume the lengths involved are below 2^63 or state
  that this is the only possible failure.
* `float32`/`float64` values are their bit patterns; `math.Float32bits`/`frombits` are
  taken to be mutually inverse reinterpretations (Go documents this), nothing else about
  floating point is modelled.
* `string` is its bytes.
* `unsafe` casts in `GetString`/`SetString` are read as "same bytes, same memory".
* Field ids are natural numbers (generated code passes positive constants; `Decode` derives
  them from `tag>>3`, which is below 2^61).
* The value model (`Model/*`) assumes that a setter's argument does not share memory with the message; the heap
  model (`Mem/*`) does not, and the refinement theorems carry the disjointness condition.
* Struct copies (`y := x`) in the heap model copy the buffer reference, the array and the map reference, as in Go.
* In the generator, a nil request, output that exceeds memory and negative `int` wrap-around of the indentation are
  not modelled. `Decl.declares` lists package-level names and methods; the struct field names `buf`, `offsets` are
  not in it (a field named `buf` gets the methods `Buf`, `SetBuf`, so there is no clash).

## 3. Not modelled

`golden/raftgogopb`, `golden/raftpb`, `golden/testgogopb` (other libraries' generated code),
`generate/*.pb.go` beyond the getters used, benchmarks, timing, garbage collection, memory weaker than sequential consistency (C67
proves that there are no data races, and to such programs the Go memory model promises sequential consistency), communication between goroutines while they run (C79 has programs that start goroutines and wait for all of them; channels and locks between running goroutines are not modelled).

## 4. Where the code does less than one would expect

Some properties a user would like to rely on are false. They are kept as properties in the form "guarantee under a
condition" plus a refutation of the unconditional form (theorems named `_false…`), so both sides are proved:
C14 (Decode panics, diverges or accepts garbage on some inputs), C15 (getter panics after a nil error), C29
(unknown fields above the table panic), C30 (non-minimal tags), C32 (argument aliasing the message), C33, C48, C50
(aliasing of extracted messages, struct copies and returned views), C58 (the slice returned by Encode), C56 (debug text is ambiguous), C57 (exit status of the plugin), C36 (getter after a failed Decode), C37 (reading
spare capacity), C41 (field number 2^31-1), C44, C52 (name clashes and dangling type names in generated files), C49
(oversized sint32 varints). Split sub-messages are not merged (C08, C38), unlike in the protobuf specification.

## 5. Properties and how each is proved

`R` below is the representation invariant `Rep`: the buffer is the concatenation of encoded
records, and each field's offset points behind the tag of the first (repeated) or last
(singular) record with its number.

| property | model | method |
|---|---|---|
| C01 | all setters/getters | `setSingle` preserves R with the new record present; per-kind encode/decode inverse |
| C02 | setSingle | the record list changes only in the one record; R |
| C03 | struct API over a schema | refinement of an abstract record store; induction over the history |
| C04 | getters, accessors | R with no record of that number |
| C05 | Encode, Decode | decode correctness applied to the record list of R |
| C06 | Encode | R implies the independent wire predicate; meaning function |
| C07 | Decode | induction over the record list, loop equation |
| C08 | Decode, setSingle | C07 + last-occurrence meaning |
| C09 | GetRepeatedNonPacked, FindNextField, Next | induction over the record list |
| C10 | appendSingle | R preserved with one more record |
| C11 | Message, SetMessage | C04/C01 for bytes, nil vs empty |
| C12 | TestMessage tree build/read | induction over trees |
| C13 | Decode | prefix analysis of a record encoding |
| C14 | Decode | classification of all inputs into valid prefix + end / cut record / defect by strong induction on the length; panic for every unknown number and wire type; witnesses of panic, divergence, false acceptance |
| C15 | Decode + getters | classification of C14 for defect-free inputs; witness of negation |
| C16 | Decode, Reset | Clear erases; equality of results for any two previous states |
| C17 | Offsets | refinement to `Nat → Option Nat` by induction over operation lists |
| C18 | Offsets, setSingle | invariant |
| C19 | Offsets, API | invariant: map nil while length ≤ 65535; sharpness |
| C20 | setSingle | equality for two runtimes |
| C21 | setSingle | byte-level equality |
| C22 | setSingle | via abstract store |
| C23 | API | invariant on record list: no duplicate singular numbers; length sum |
| C24 | varints | induction |
| C25 | zig-zag | arithmetic on BitVec/Int |
| C26 | getters | arithmetic |
| C27 | Decode | decode result as a function of record shape |
| C28 | API | R: other records are kept, in order |
| C29 | Decode | negation for every schema and every larger number |
| C30 | Decode + setter | R only asks that each recorded tag be minimal when overwritten; witness of negation |
| C31 | heap model | frame theorem and induction over interleavings |
| C32 | heap model | refinement under disjointness; witness of negation for self-aliasing |
| C33 | heap model | frame: cells outside a region keep the records before it; witnesses of negation |
| C34 | heap model | readers take the heap as input only; returned ranges |
| C35 | Reset, heap model | case analysis; frame theorem for the storage |
| C36 | Decode + getters | decode of a cut message relates to decode of its complete records; witness of negation |
| C37 | getters | equality for any two spare contents; witness of negation |
| C38 | Decode | C07 on appended record lists |
| C39 | Decode | iteration count of the loop |
| C40 | Uvarint variants | induction |
| C41, C42 | generator | the text of each file is the rendering of a declaration list computed from the descriptors (induction over the StringTree writes); table properties by induction over fields |
| C43, C45 | generator | induction over files, messages, fields |
| C44, C52 | generator | characterisation of declared and referred names; necessary and sufficient conditions; witnesses |
| C46 | StringTree | induction over arguments |
| C47 | toGoCase, fieldToGoTypeMessage | independent specifications of word splitting and of the part after the last dot |
| C48 | heap model | frame theorems between two structs sharing a buffer; witnesses of negation |
| C49 | sint32 getter | its value for every varint; arithmetic characterisation of the inputs on which it is right; sint64 values as a special case |
| C50 | heap model | frame theorems for views; witnesses of negation |
| C51 | generator + schema | declaration list implements the schema of the descriptor, so C01-C40 apply to it; golden files checked by the kernel |
| C53 | heap model | every call either stays in its storage or allocates; induction over histories. Bucket growth inside an existing Go map is not modelled |
| C54 | API | R determines the bytes: for each call the next record list is computed from the previous one, for all runs at once |
| C55 | FindNextField | iteration count of its loop; induction over the elements |
| C56 | WriteText | R for each level; induction over the nesting depth; refinement of trees (C12) |
| C57 | cmd | case analysis over all failures at the boundary; C43, C45 |
| C58 | heap model | frame theorems (each call writes only into its buffer, additions only behind its end); induction over histories; witnesses |
| C59 | getters | R locates the record; the getter is evaluated on both buffers |
| C60 | API + `Spec/Std` | R gives the records; Unmarshal is characterised field by field, so calls that permute records do not matter; induction over histories and nesting; witnesses for split message fields |
| C61 | Heap | projection of a schedule on one goroutine: other goroutines' calls preserve what it may look at (C31); footprint theorem for the shared bytes; decoding writes no array, so readers commute |
| C62 | GoSrc | kernel evaluation of the lexer on the file text; symbolic execution of each syntax tree; simulation of the interpreted loops by the model loops; refinement Mem -> Model |
| C63 | GoSrc/Gen* over Gen/Generate | induction over the declarations for the text; name resolution from uniqueness (C44); symbolic execution of each method's tree on top of C62; induction over the run with the invariant of C03 |
| C64 | GoSrc/Tool* | kernel evaluation of the lexer on the file text; symbolic execution of each syntax tree; induction over the arguments of Write, the fields, messages, files of a request, and the calls; induction over the heap for what a response holds |
| C65 | Props/EndToEnd over C63, C64 | the descriptor's fields are the fields of a schema (C51); translation of calls and runs; composition |
| C66 | Props/Programs over C63, C65 | a borrow-style invariant: structs with memory of their own are pairwise disjoint, views lie within the memory of one of them, offset maps are distinct; every call is framed by what its struct owns (`Frame`); induction over runs. `C66_shared` shows the memory rule is needed |
| C67 | Conc/*, Props/Races over C62-C66 | both interpreters again, as programs of single accesses (free monad); simulation: with enough rounds the fine interpreter computes what the interpreter of C62/C63 computes; a checked syntactic discipline of the Go source (which functions may write what) and an invariant give, for every method, the locations it may touch; programs that keep to separate locations run in every interleaving as alone |
| C68 | GoSrc/Str*, Props/SourceText over C56, C62, C63 | kernel evaluation of the lexer on the file text; symbolic execution of the statements; simulation of the interpreted loop by the model loop; induction over the depth of nested calls; then C56 and C63 |
| C69 | GoSrc/Check (a static checker for the subset of Go in generated files, written from the Go specification; signatures of package zeropb from its source trees), GoSrc/CheckGen, Props/Compiles | the check computed on each generated declaration with symbolic names; lookup lemmas from the absence of duplicates; for the converse, what a successful check implies |
| C70 | Mem/AllocMap, Props/Reuse on the heap of Mem/Model: allocations are counted call by call, so other code may run between the calls. `calls_follow` runs the heap calls in step with the same calls on an empty value (`exact_step`): lengths and recorded offsets are the same in every round, so a capacity that once sufficed always suffices (`C70_steady`, `C70_rounds`). `C70_round` is an equivalence. `C70_possible`, `C70_forever`: rounds exist from every state. Not modelled: how Go's map implementation grows its buckets, escape analysis of the struct variables |
| C71 | Conc/Step to Conc/GenAccess, Props/Accesses over C62-C67 | each function of zeropb.go and offsets.go, run access by access, equals a short program (`prog_*` in Conc/Cost); its trace on a message is computed by induction over the records (`decode_at`, `findNext_at`). The methods are composed from these (`does_*`). Specification: `LastRecord`, `FirstRecord`, `NoRecord`, `Skims`, `Seeks`; the last two are functional (`Skims.unique`, `Seeks.unique`). That the calls return is taken from C63/C65, that no byte is written from C67 |
| C72 | Conc/SetProg to Conc/GenWrites, Props/Writes over C63-C71 | `setSingle`, `appendSingle`, `append`, `copy` and the loops that move offsets, run access by access, equal short programs (`setSingleP` …); the bytes they write and read on a located record are computed exactly (`set_same`, `set_first`, `set_move`). A generated setter becomes such a program (`assign_becomes`). Specification: `LastRecord`, `NoRecord`, `Assigns`, `WritesFrom`. That the calls return: `C72_succeeds`, from C63/C65 |
| C73 | Props/Fields over C67, C71, C72 | specification: `Shares` (what a goroutine does), `InValue`, `valueOwner` (which bytes belong to whom), `oneByOne`. By induction on `Shares`: a goroutine alone uses only what it may (`Shares.ends`), does the same in any memory that agrees where it may read (`Shares.transfer`), and keeps the shape of the message (`Placed`); then the interleaving theorem of C67. The final memory is determined location by location, by the owner's run alone (`gst_ext`). The conditions are needed: an interleaving with a race is built from the traces (`advance`, `races`) |
| C74 | Props/SetCost, Conc/SetCost over C72 | the events of a call are split into bytes (known exactly from C72, or bounded in every case by `tail_bytes`, `appendSingle_bytes`, `moved_bytes`) and others (bounded statically by `Upto`, with the two loops over the offsets bounded by the number of slots and of entries in the map, `adjust_others`; the entries are at most the slots by the invariant of the offsets, `made_spilled`) |
| C75 | Props/Untrusted over C66, C14 | the program keeps a ledger: structs with known contents, and spoiled structs of which only the type is known; invariant over all runs: that of C66 for the known structs, and shape (well-formed memory, number of slots, an offset map of their own) for all; a decode of anything changes only its struct (`decoded`), and for `Decode` and `Reset` a spoiled struct behaves like a cleared one (`Sound.ready`) |
| C76 | Props/Recover over C75, Conc/Halt, Conc/SimFail | the memory at the moment of a panic is that of the access-by-access interpreter when it stops; every function of the source satisfies a Hoare logic with a third condition, for panics (`SafeZ`): only the struct decoded into, its map and fresh memory have been written; so the invariant of C75 survives with that struct spoiled; that panics happen exactly where the statement-level semantics says so: simulation, by induction over syntax |
| C77 | Props/Peek over C76, Conc/ReadHalt | the access rules of C67 (read rights only) say that a getter, whether it returns or panics, writes only what it allocates; message getters and Next are these followed by the Decode of C76; the invariant of C75 plus well-formedness of the iterators of unknown contents survives every step; progress: the rest that FindNextField returns starts at index at least 1 |
| C78 | Props/Overwrite over C77, Conc/SetHalt | the access rules of C67 with the rights to one struct (its buffer, slots and map): a setter, whether it returns or panics, writes only there or in what it allocates, so every struct of known contents and every iterator is framed; the model functions of the setters contain no loop that can run forever; appendSingle fails only for lack of a slot or of room in an int; Reset(nil) does not look at the old buffer |
| C79 | Props/Join over C66, C67 | the memory after the wait is defined (`join`): every goroutine names what it allocates by numbers of its own (`Conc/Prog`), at the end each such array, map and struct gets one number; the invariant of C66 is proved for this memory and the ledger put together from those of the goroutines (`join_inv`): cells, maps and structs of two goroutines are apart by ownership (old) or by number (new), what nobody had is as before (frame of `Prog.Safe`), what a goroutine had is what it is when it runs alone (C67). `Waits` is the inductive set of runs; existence of complete interleavings by a measure (`C79_ends`) |
| C80 | Conc/HoldHalt, Props/Guarded over C67, C76, C78 | a goroutine (`Worker`) goes on with the results of a call or, after a panic, with `none`; `attempt` turns the stop of a run into an ordinary result, so the interleaving theorem of C67 applies; needed for that: what a call may use holds at every access at which it may stop (`Conc/HoldHalt`, for all generated methods), so the rights after a panic are sound; `C80_alone`: the semantics alone (a relation) is determined; `C80_server` computes the result of every goroutine from the bytes alone; `C80_verdict` gives the outcome for valid, cut off and newer messages |
| C81 | Props/Await over C78, C79, C80 | `Tends` is the programs of C78 with one more step, the end of goroutines (`Released`); memory afterwards is `join` of C79; the ledger afterwards (`rejoinLedger`) keeps contents where C79 does, and types of all structs that the goroutine owns (`Yours`). The invariant `Whole` of C77 is shown for the joined memory: for structs of unknown contents only well-formedness, the slot count and separate overflow maps are needed (a map of a struct that was not handed out belongs to nobody, because maps are separate before); `Enough` asks for loops that are not cut off, on calls that return and on calls that panic (`Outcome.attempt`, `Outcome.det`) |
| C82 | Props/Versions over C06, C66, C29 | the specification compares two message types by field numbers; the invariant of C66 says that an encoded struct is a sequence of records that holds the contents, including, for numbers without accessors, the values that were passed on (`Contents.rest`, tracked by C06 through every history); compatible types are then shown value by value (`C82_values`: a varint is cut off to the size of the type, sign extension agrees with a cast of the number), so the records conform to the receiver's type and its Decode (C66) yields `Carried`; the way back is the same theorem with the versions swapped, whose conditions on passed-on values follow from `Carried` |
| C83 | Props/Forward over C82 | induction over the journey: for each number, the field, or the values passed on, ends in the last value written (`Follows`, preserved by `Carried` in each of the nine cases single/repeated/unknown, and by calls); values passed on are of a type that some program on the way had, so they fit the next version; the numbers used are those of calls |
| C84 | Spec/GoExpr, GoSrc/Group | a reader with fuel finds every grouped tree from its tokens (induction over the tree, with the operator that may follow), so grouped trees with equal tokens are equal; kernel evaluation that the trees of the files are grouped and have the tokens of the syntax trees; for generated files, case analysis with names and numbers of which the characters are letters and digits |
| C85 | Props/Api over GoSrc/GenSyntax, C63, C69 | what each declaration provides, case by case; necessity from Encode, the getters and the iterators, with names declared once to exclude coincidences |
| C86 | Spec/Plugin, Props/Stdio | unique reading by induction over the levels, from the unambiguous wire format (C58); encoder proved against the reader; agreement on used fields preserved level by level; C64 and C65 for the process |

## 6. Axioms of each property theorem

* `propext`: `C46_panics`, `C47_toGoCase`
* `Quot.sound, propext`: `C17_map`, `C19_sharp`, `C24_tight`, `C33_false_in_place`, `C43_name`, `C43_name_pieces`, `C43_simple_name`, `C46_concat`, `C47_only_word`, `C47_splits`, `C47_typeName`, `C48_false_resize`, `C48_reset_independent`, `C48_reset_shared`, `C51_golden`, `C52_false_confused`, `C53_sharp`, `C58_false_reset`, `C58_false_set`
* `Classical.choice, Quot.sound, propext`: `C01_set_get`, `C01_set_get_ok`, `C02_set_frame`, `C03_history`, `C03_history_ok`, `C04_unset`, `C05_encode_decode`, `C06_encode_valid`, `C07_decode_any`, `C08_false_merge`, `C08_last_wins`, `C08_overwrite`, `C08_split`, `C09_iterate`, `C10_append`, `C11_presence`, `C11_setMessage`, `C12_tree`, `C13_truncated`, `C14_decode_panics`, `C14_decode_returns`, `C14_false_accepts`, `C14_false_diverges`, `C14_false_panics`, `C15_false`, `C15_nil_safe`, `C16_decode_forgets`, `C16_reset_forgets`, `C18_consistent`, `C18_memory`, `C19_long`, `C19_no_map`, `C20_map_order`, `C21_idempotent`, `C21_same_length`, `C22_commute`, `C23_no_leak`, `C24_reads`, `C24_setters`, `C24_uvarint`, `C24_uvarint32`, `C24_varint`, `C24_varint32`, `C25_bijective`, `C25_fields`, `C25_one_byte`, `C25_zigzag`, `C26_negative_int32`, `C26_widths`, `C27_embedded_error`, `C27_lazy`, `C27_next`, `C28_append_bytes`, `C28_set_bytes`, `C28_unknown_kept`, `C29_false_unknown_panics`, `C30_false`, `C30_safe`, `C31_footprint`, `C31_no_interference`, `C31_reach`, `C31_values`, `C31_writes`, `C32_append_copies`, `C32_false_self`, `C32_set_copies`, `C33_before`, `C33_exact_capacity`, `C33_false`, `C33_sub_before`, `C34_decode_reads`, `C34_extract`, `C34_iterate_views`, `C34_view`, `C34_views`, `C35_reset`, `C35_storage`, `C36_false`, `C36_others`, `C37_false`, `C37_no_overread`, `C37_same_fields`, `C38_concat`, `C39_linear`, `C40_versions`, `C41_accessors`, `C41_false_max`, `C41_table`, `C42_in_text`, `C42_repeated_table`, `C43_files`, `C44_false_clashes`, `C44_false_repeated`, `C44_iff`, `C44_no_duplicates`, `C45_panics`, `C46_numbers`, `C46_sticky`, `C48_append`, `C48_decode_independent`, `C48_exact_capacity`, `C48_false_append`, `C48_false_in_place`, `C48_false_reset`, `C48_set_absent`, `C49_false`, `C49_narrowed`, `C49_sint32`, `C49_value`, `C50_append`, `C50_false`, `C50_false_other`, `C50_others`, `C50_same_length`, `C50_setBytes_absent`, `C50_set_absent`, `C51_implements`, `C52_closed`, `C52_false_nested`, `C52_iff`, `C52_package`, `C53_array`, `C53_map`, `C53_next`, `C53_sub_message`, `C53_zero_allocation`, `C54_deterministic`, `C54_exact`, `C54_false_canonical`, `C54_once`, `C55_exact`, `C55_twice`, `C56_error`, `C56_false_injective`, `C56_panic`, `C56_text`, `C56_tree`, `C58_adding`, `C58_elsewhere`, `C58_history`, `C59_absent`, `C59_get`, `C59_iterator`, `C59_through`, `C60_decode`, `C60_encode`, `C60_false_set`, `C60_false_split`, `C60_lockstep`, `C60_marshal`, `C61_readers`, `C61_schedule`, `C61_torn`, `C70_forever`, `C70_one_map`, `C70_possible`, `C70_round`, `C70_rounds`, `C70_steady`

## 7. Tests against wrong programs

`seeded/LOG.jsonl` records edits of the model that imitate bugs; for each, which property theorems no longer have a
proof ("failed": the theorem or something its proof uses fails to check) and whether a theorem had to be tightened.
