/-
Specification vocabulary for C82: the rules of the OpenAPI 3.0 standard that a document, as a value, has to satisfy: those on
the version, the paths, the operations, the parameters, the responses, the names and types of schemas and the references.
Rules the serialisation settles (which keys are written) belong to C80.
-/
import Verif.Spec.Schema
import Verif.Spec.Paths
import Verif.Lemmas.OpenApi

namespace Astra.Spec

/-- The types of the standard; the empty string is a schema without `type`, which admits every value. -/
def StandardType (t : Str) : Prop :=
  t ∈ [[], c!"array", c!"boolean", c!"integer", c!"number", c!"object", c!"string"]

/-- A schema object of the standard: a type of the standard, an array says what its items are, and the same below. -/
inductive StandardSchema : Schema → Prop
  | mk {s : Schema} : StandardType s.type → (s.type = c!"array" → s.items ≠ none) → (∀ t ∈ s.allOf, StandardSchema t) →
      (∀ t, s.items = some t → StandardSchema t) → (∀ e ∈ s.properties, StandardSchema e.2) →
      (∀ t, s.additionalProperties = some t → StandardSchema t) → StandardSchema s

/-- The key of a response: a status code. -/
def StatusCode (key : Str) : Prop := ∃ n : Int, 100 ≤ n ∧ n ≤ 599 ∧ key = itoa n

/-- The characters a key of `components.schemas` may have. -/
def NameChar (c : Char) : Prop := c.isAlphanum = true ∨ c = '.' ∨ c = '-' ∨ c = '_'

/-- An operation object of the standard, under the given path. -/
structure StandardOperation (path : Str) (op : Operation) : Prop where
  /-- a parameter is named and is a path, query or header parameter; a path parameter is required -/
  parameters : ∀ p ∈ op.parameters, p.name ≠ [] ∧ (p.loc = c!"path" ∨ p.loc = c!"query" ∨ p.loc = c!"header") ∧
    (p.loc = c!"path" → p.required = true)
  /-- no two parameters have the same name and location -/
  unique : (op.parameters.map (fun p => (p.name, p.loc))).Nodup
  /-- the template variables of the path are the path parameters -/
  template : ∀ x, x ∈ placeholders path ↔ ∃ p ∈ op.parameters, p.loc = c!"path" ∧ p.name = x
  /-- there is a response, and responses are keyed by status codes -/
  responses : op.responses ≠ [] ∧ ∀ e ∈ op.responses, StatusCode e.1
  /-- a request body has content -/
  body : ∀ content, op.requestBody = some content → content ≠ []

/-- A document of the standard. -/
structure Standard (d : Document) : Prop where
  version : d.openapi = c!"3.0.0"
  /-- paths are distinct and begin with a slash -/
  paths : (mkeys d.paths).Nodup ∧ ∀ e ∈ d.paths, ∃ rest, e.1 = '/' :: rest
  operations : ∀ path i op, (path, i) ∈ d.paths → OfItem i op → StandardOperation path op
  /-- no two operations have the same operation id -/
  operationIds : ∀ path i m op path' i' m' op', (path, i) ∈ d.paths → i.op m = some op → (path', i') ∈ d.paths → i'.op m' = some op' →
    op.operationId ≠ [] → op.operationId = op'.operationId → path = path' ∧ m = m'
  /-- the keys of `components.schemas` are distinct and made of the characters the standard allows -/
  names : (mkeys d.schemas).Nodup ∧ ∀ e ∈ d.schemas, e.1 ≠ [] ∧ ∀ c ∈ e.1, NameChar c
  schemas : ∀ s, InDocument d s → StandardSchema s
  /-- references lead to entries of `components.schemas` -/
  references : ∀ s r, InDocument d s → HasRef s r → ∃ n, r = c!"#/components/schemas/" ++ n ∧ n ∈ mkeys d.schemas

end Astra.Spec
