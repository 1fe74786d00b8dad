import Verif.Proofs.Parse.Messages
import Verif.Proofs.Resolve.Messages
import Verif.Properties.Causes
import Verif.Properties.Driver
import Verif.Properties.Reading
/-! Property C60: the messages of errors. -/
namespace Ws.Properties
open Ws Spec

set_option Elab.async false

variable {env : Env} {source : Str} {repl : Bool} {rs rs' : Resolver} {es : ParseError}

theorem piece_message {before : List Str} {p : Piece} {rest : List Str} {c : Cause} {l : List Str}
    (hp : p = .fault c l) (h : FaultOK env before rest c l) : ScannerMessage p.text c.message := by
  subst hp
  cases h with
  | tab => exact .inl (by simp [scannerMessages])
  | backslash n cr _ _ => exact .inl (by simp [scannerMessages])
  | unexpected g _ => exact .inr ⟨g, by simp [Piece.text], rfl⟩
  | unterminated body _ _ => exact .inl (by simp [scannerMessages])

/-- C60: the scanner's errors have the messages listed, or name a cluster of the source. -/
theorem scan_messages (hE : EnvLaws env) (h : scanTokens env source = .done (.error es)) :
    ∀ c ∈ es, ScannerMessage (env.segment source) c.message := by
  obtain ⟨steps, ht, hr, rfl, _⟩ := (scan_rejects_iff hE es).mp h
  intro c hc
  obtain ⟨s, hs, hc⟩ := List.mem_flatMap.mp hc
  obtain ⟨a, b, e⟩ := List.append_of_mem hs
  have hok := hr a s b e
  rcases List.mem_append.mp hc with hc | hc
  · by_cases hf : First (pieces a) s.piece
    · obtain ⟨g, r, _, hm⟩ := hok.first hf
      have : s.misfit = [] ∨ ∃ line column, s.misfit = [⟨⟨line, column⟩, none, "Outdent does not match any previous indentation level"⟩] := by
        generalize s.layout = x at hm
        generalize s.misfit = y at hm
        generalize levels a = z at hm
        cases hm with
        | misfit => exact .inr ⟨_, _, rfl⟩
        | _ => exact .inl rfl
      rcases this with e | ⟨_, _, e⟩
      · rw [e] at hc
        cases hc
      · rw [e] at hc
        rw [List.mem_singleton.mp hc]
        exact .inl (by simp [scannerMessages])
    · rw [(hok.other hf).2] at hc
      cases hc
  · have hp := hok.piece.ok
    cases hsp : s.piece with
    | fault c' l =>
      rw [hsp] at hp hc
      simp only [Piece.causes, List.mem_singleton] at hc
      subst hc
      rcases piece_message (p := .fault c l) rfl hp with h | ⟨g, hg, h⟩
      · exact .inl h
      · refine .inr ⟨g, ?_, h⟩
        rw [← ht, textOf, text, List.mem_flatMap]
        exact ⟨.fault c l, List.mem_map.mpr ⟨s, hs, hsp⟩, hg⟩
    | _ => rw [hsp] at hc; simp [Piece.causes] at hc

theorem depthSum_counts (ts : List Token) :
    depthSum ts = (ts.map Token.tokenType).count .indent - (ts.map Token.tokenType).count .outdent := by
  induction ts with
  | nil => rfl
  | cons t ts ih =>
    rw [depthSum, ih, depthOf]
    simp only [List.map_cons, List.count_cons]
    cases t.tokenType <;> simp <;> omega

theorem scan_paired (hE : EnvLaws env) {ts : List Token} (h : scanTokens env source = .done (.ok ts)) : Paired ts where
  pos n := by
    have := (blocks_balanced hE h).1 _ _ (List.take_append_drop n ts).symm
    rw [depthSum_counts]
    omega
  total := by
    have := (blocks_balanced hE h).2
    rw [depthSum_counts]
    omega
  eof := one_eof hE h

/-- C60: the parser's errors have the messages listed. -/
theorem parse_messages (hE : EnvLaws env) (hS : Fits env source) {ts : List Token} (hs : scanTokens env source = .done (.ok ts))
    (h : parseTokens env ts repl = .done (.error es)) : ∀ c ∈ es, c.message ∈ parserMessages :=
  parse_known (scan_tokensOk hE hs) (scan_paired hE hs) (hS ts hs) h

/-- C60: the resolver's errors have the messages listed. -/
theorem resolve_messages (hs : Session rs) {sts : List Stmt} (h : rs.resolve sts = .done (.error es, rs')) :
    ∀ c ∈ es, c.message ∈ resolverMessages := by
  obtain ⟨history, hh⟩ := session_after hs
  obtain ⟨_, b, hb⟩ := (rejected_iff hh).mp ⟨rs', h⟩
  exact faults_known hb

/-- C60: the errors of a run have the messages listed. -/
theorem run_messages (hE : EnvLaws env) (hS : Fits env source) (hs : Session rs)
    (h : run env rs source repl = .done (.error es, rs')) :
    (∀ c ∈ es, ScannerMessage (env.segment source) c.message) ∨
    (∀ c ∈ es, c.message ∈ parserMessages) ∨
    (∀ c ∈ es, c.message ∈ resolverMessages) := by
  have h := run_stages.mp h
  generalize hr : Except.error es = r at h
  cases h with
  | scan h => cases hr; exact .inl (scan_messages hE h)
  | parse h1 h2 => cases hr; exact .inr (.inl (parse_messages hE hS h1 h2))
  | resolve h1 h2 h3 => subst hr; exact .inr (.inr (resolve_messages hs h3))

/-- The source has an error with the message, from the parser and on its own. -/
def reportsMessage (source : Str) (m : String) : Bool :=
  match wasmParseString asciiEnv source with
  | .done (.error es) => es.any (fun c => c.message == m)
  | _ => false

/-- Sources with too many parameters and too many arguments. -/
def manyParametersSource : Str := c!"fun f(" ++ (List.replicate 255 c!"a,").flatten ++ c!"a) { }\n"
def manyArgumentsSource : Str := c!"f(" ++ (List.replicate 255 c!"a,").flatten ++ c!"a)\n"

/-- A source for each of the parser's messages. -/
def parserSources : List Str :=
  [c!"if (a)\nb\n", c!"{ a\n",
    c!"fun f(1) { a\n }\n", manyParametersSource,
    c!"fun f 1\n", c!"fun f(a 1\n", c!"fun f() 1\n",
    c!"class A { 1 }\n",
    c!"class A < 1\n", c!"class 1\n", c!"class A 1\n",
    c!"class A {",
    c!"for (var i = 0) a\n", c!"var a = 1 ]\n", c!"var 1\n",
    c!"a ]\n",
    c!"break\n", c!"while (a) break 1\n",
    c!"continue\n", c!"while (a) continue 1\n",
    c!"for 1\n", c!"for (;a) b\n", c!"for (;a;b\n",
    c!"if 1\n", c!"if (a\n",
    c!"print a ]\n", c!"return a ]\n",
    c!"while 1\n", c!"while (a\n",
    c!"1 = 2\n", c!"  b\n  c\n",
    manyArgumentsSource, c!"f(a\n", c!"a[1\n",
    c!"x = {a: 1, a: 2}\n", c!"x = fun f() 1\n",
    c!"(a\n", c!"x = {a: 1\n", c!"[1\n",
    c!"super\n", c!"super.1\n", c!"]\n", c!"a.1\n"]

theorem parameters_message_occurs :
    reportsMessage manyParametersSource "Cannot have more than 255 parameters." = true := by by_kernel

theorem arguments_message_occurs :
    reportsMessage manyArgumentsSource "Cannot have more than 255 arguments." = true := by by_kernel

theorem messages_occur_front :
    ((parserSources.zip parserMessages).take 3).all (fun x => reportsMessage x.1 x.2) = true := by by_kernel

theorem messages_occur_middle :
    (((parserSources.zip parserMessages).drop 4).take 27).all (fun x => reportsMessage x.1 x.2) = true := by by_kernel

theorem messages_occur_back :
    ((parserSources.zip parserMessages).drop 32).all (fun x => reportsMessage x.1 x.2) = true := by by_kernel

theorem messages_cut : parserSources.zip parserMessages = (parserSources.zip parserMessages).take 3 ++
    [(manyParametersSource, "Cannot have more than 255 parameters.")] ++ ((parserSources.zip parserMessages).drop 4).take 27 ++
    [(manyArgumentsSource, "Cannot have more than 255 arguments.")] ++ (parserSources.zip parserMessages).drop 32 := rfl

/-- C60: each of the parser's messages occurs. -/
theorem parser_messages_occur : parserSources.length = parserMessages.length ∧
    (parserSources.zip parserMessages).all (fun x => reportsMessage x.1 x.2) = true := by
  refine ⟨rfl, ?_⟩
  rw [messages_cut, List.all_append, List.all_append, List.all_append, List.all_append, messages_occur_front,
    messages_occur_middle, messages_occur_back, List.all_cons, List.all_cons, parameters_message_occurs, arguments_message_occurs]
  rfl

/-- Sources for the messages of the scanner. -/
theorem scanner_messages_occur :
    ([c!"\ta\n", c!"a \\ b\n", c!"\"a", c!"  a\n b\n"].zip scannerMessages).all (fun x => reportsMessage x.1 x.2) = true ∧
    reportsMessage c!"a ^\n" ("Unexpected token: " ++ String.ofList c!"^") = true := by
  constructor <;> by_kernel

/-- Sources for the messages of the resolver, but the first. -/
theorem resolver_messages_occur :
    ([c!"if (a)\n  var b = 1\n  var b = 2\n", c!"this\n", c!"if (a)\n  var b = b\n", c!"super.a\n",
      c!"class A\n  f()\n    super.a\n", c!"return\n", c!"class A\n  init()\n    return 1\n", c!"class A < A { }"].zip resolverMessages.tail).all
        (fun x => reportsMessage x.1 x.2) = true := by by_kernel

end Ws.Properties
