import Verif.Model.Names
import Verif.Model.Said

/-!
# The tool that hands out the documentation

Rust source: `/repo/firm_mcp/src/tools/dsl_reference.rs`. The two texts are parameters
(`dsl_reference_content.rs` is static documentation).
-/

namespace Firm

/-- `DSL_REFERENCE` and `QUERY_REFERENCE` — dsl_reference_content.rs:7-152 and 156-316. -/
structure Manual where
  dsl : Str
  query : Str

/-- `default_topic` — dsl_reference.rs:19-21: the topic if the request has none
(`#[serde(default = ..)]`, line 15). -/
def topicOf (asked : Option Str) : Str := asked.getD "all".toList

/-- `execute` — dsl_reference.rs:24-38. -/
def dslReference (t : CaseTable) (M : Manual) (topic : Str) : ToolReply :=
  let other := t.lower topic
  if other = "dsl".toList then ⟨false, [M.dsl]⟩
  else if other = "query".toList then ⟨false, [M.query]⟩
  else if other = "all".toList ∨ other = [] then
    ⟨false, [M.dsl ++ "\n\n---\n\n".toList ++ M.query]⟩
  else ⟨true, ["Unknown topic '".toList ++ other ++
    "'. Valid options: 'dsl', 'query', 'all'".toList]⟩

end Firm
