import Verif.Lemmas.Seidel.Canon

/-! The links after each of the operations. -/

namespace Rene.Seidel
open Rene Spec

section fields
variable {N : Nodes} {a : Nat} {o : Option Nat} (i : Nat)

theorem ur_linkUR : (trapAt (linkUR N a o) i).upperRight = if i = a ∧ isLeaf N a = true then o else (trapAt N i).upperRight := by
  cases o with
  | none =>
    simp only [link, trapAt_modTrap]
    by_cases h : i = a ∧ isLeaf N a = true
    · obtain ⟨rfl, h⟩ := h; simp [h, setUR]
    · simp [h]
  | some j =>
    simp only [link, trapAt_modTrap, isLeaf_modTrap]
    by_cases h : i = a ∧ isLeaf N a = true <;> by_cases h' : i = j ∧ isLeaf N j = true
    · obtain ⟨rfl, h⟩ := h; obtain ⟨rfl, h'⟩ := h'; simp [h, setUR, setUL]
    · obtain ⟨rfl, h⟩ := h
      by_cases q : i = j
      · subst q; simp_all
      · have q' : ¬ j = i := fun w => q w.symm
        simp [h, q, q', setUR]
    · obtain ⟨rfl, h'⟩ := h'
      by_cases q : i = a
      · subst q; simp_all
      · simp [h', q, setUL]
    · by_cases q : i = j
      · subst q
        have : isLeaf N i = false := by simpa using h'
        by_cases q2 : i = a
        · subst q2; simp [this]
        · simp [this, q2]
      · have q' : ¬ j = i := fun w => q w.symm
        by_cases q2 : i = a
        · subst q2
          have : isLeaf N i = false := by simpa using h
          simp [this, q, q']
        · simp [q, q', q2]

theorem ul_linkUR : (trapAt (linkUR N a o) i).upperLeft = if o = some i ∧ isLeaf N i = true then some a else (trapAt N i).upperLeft := by
  cases o with
  | none =>
    simp only [link, trapAt_modTrap]
    by_cases h : i = a ∧ isLeaf N a = true
    · obtain ⟨rfl, h⟩ := h; simp [h, setUR]
    · simp [h]
  | some j =>
    simp only [link, trapAt_modTrap, isLeaf_modTrap]
    by_cases h : i = a ∧ isLeaf N a = true <;> by_cases h' : i = j ∧ isLeaf N j = true
    · obtain ⟨rfl, h⟩ := h; obtain ⟨rfl, h'⟩ := h'; simp [h, setUR, setUL]
    · obtain ⟨rfl, h⟩ := h
      by_cases q : i = j
      · subst q; simp_all
      · have q' : ¬ j = i := fun w => q w.symm
        simp [h, q, q', setUR]
    · obtain ⟨rfl, h'⟩ := h'
      by_cases q : i = a
      · subst q; simp_all
      · simp [h', q, setUL]
    · by_cases q : i = j
      · subst q
        have : isLeaf N i = false := by simpa using h'
        by_cases q2 : i = a
        · subst q2; simp [this]
        · simp [this, q2]
      · have q' : ¬ j = i := fun w => q w.symm
        by_cases q2 : i = a
        · subst q2
          have : isLeaf N i = false := by simpa using h
          simp [this, q, q']
        · simp [q, q', q2]

theorem lr_linkUR : (trapAt (linkUR N a o) i).lowerRight = (trapAt N i).lowerRight := by
  cases o with
  | none =>
    simp only [link, trapAt_modTrap]
    by_cases h : i = a ∧ isLeaf N a = true
    · obtain ⟨rfl, h⟩ := h; simp [h, setUR]
    · simp [h]
  | some j =>
    simp only [link, trapAt_modTrap, isLeaf_modTrap]
    by_cases h : i = a ∧ isLeaf N a = true <;> by_cases h' : i = j ∧ isLeaf N j = true
    · obtain ⟨rfl, h⟩ := h; obtain ⟨rfl, h'⟩ := h'; simp [h, setUR, setUL]
    · obtain ⟨rfl, h⟩ := h
      by_cases q : i = j
      · subst q; simp_all
      · have q' : ¬ j = i := fun w => q w.symm
        simp [h, q, q', setUR]
    · obtain ⟨rfl, h'⟩ := h'
      by_cases q : i = a
      · subst q; simp_all
      · simp [h', q, setUL]
    · by_cases q : i = j
      · subst q
        have : isLeaf N i = false := by simpa using h'
        by_cases q2 : i = a
        · subst q2; simp [this]
        · simp [this, q2]
      · have q' : ¬ j = i := fun w => q w.symm
        by_cases q2 : i = a
        · subst q2
          have : isLeaf N i = false := by simpa using h
          simp [this, q, q']
        · simp [q, q', q2]

theorem ll_linkUR : (trapAt (linkUR N a o) i).lowerLeft = (trapAt N i).lowerLeft := by
  cases o with
  | none =>
    simp only [link, trapAt_modTrap]
    by_cases h : i = a ∧ isLeaf N a = true
    · obtain ⟨rfl, h⟩ := h; simp [h, setUR]
    · simp [h]
  | some j =>
    simp only [link, trapAt_modTrap, isLeaf_modTrap]
    by_cases h : i = a ∧ isLeaf N a = true <;> by_cases h' : i = j ∧ isLeaf N j = true
    · obtain ⟨rfl, h⟩ := h; obtain ⟨rfl, h'⟩ := h'; simp [h, setUR, setUL]
    · obtain ⟨rfl, h⟩ := h
      by_cases q : i = j
      · subst q; simp_all
      · have q' : ¬ j = i := fun w => q w.symm
        simp [h, q, q', setUR]
    · obtain ⟨rfl, h'⟩ := h'
      by_cases q : i = a
      · subst q; simp_all
      · simp [h', q, setUL]
    · by_cases q : i = j
      · subst q
        have : isLeaf N i = false := by simpa using h'
        by_cases q2 : i = a
        · subst q2; simp [this]
        · simp [this, q2]
      · have q' : ¬ j = i := fun w => q w.symm
        by_cases q2 : i = a
        · subst q2
          have : isLeaf N i = false := by simpa using h
          simp [this, q, q']
        · simp [q, q', q2]

theorem ur_linkUL : (trapAt (linkUL N a o) i).upperRight = if o = some i ∧ isLeaf N i = true then some a else (trapAt N i).upperRight := by
  cases o with
  | none =>
    simp only [link, trapAt_modTrap]
    by_cases h : i = a ∧ isLeaf N a = true
    · obtain ⟨rfl, h⟩ := h; simp [h, setUL]
    · simp [h]
  | some j =>
    simp only [link, trapAt_modTrap, isLeaf_modTrap]
    by_cases h : i = a ∧ isLeaf N a = true <;> by_cases h' : i = j ∧ isLeaf N j = true
    · obtain ⟨rfl, h⟩ := h; obtain ⟨rfl, h'⟩ := h'; simp [h, setUL, setUR]
    · obtain ⟨rfl, h⟩ := h
      by_cases q : i = j
      · subst q; simp_all
      · have q' : ¬ j = i := fun w => q w.symm
        simp [h, q, q', setUL]
    · obtain ⟨rfl, h'⟩ := h'
      by_cases q : i = a
      · subst q; simp_all
      · simp [h', q, setUR]
    · by_cases q : i = j
      · subst q
        have : isLeaf N i = false := by simpa using h'
        by_cases q2 : i = a
        · subst q2; simp [this]
        · simp [this, q2]
      · have q' : ¬ j = i := fun w => q w.symm
        by_cases q2 : i = a
        · subst q2
          have : isLeaf N i = false := by simpa using h
          simp [this, q, q']
        · simp [q, q', q2]

theorem ul_linkUL : (trapAt (linkUL N a o) i).upperLeft = if i = a ∧ isLeaf N a = true then o else (trapAt N i).upperLeft := by
  cases o with
  | none =>
    simp only [link, trapAt_modTrap]
    by_cases h : i = a ∧ isLeaf N a = true
    · obtain ⟨rfl, h⟩ := h; simp [h, setUL]
    · simp [h]
  | some j =>
    simp only [link, trapAt_modTrap, isLeaf_modTrap]
    by_cases h : i = a ∧ isLeaf N a = true <;> by_cases h' : i = j ∧ isLeaf N j = true
    · obtain ⟨rfl, h⟩ := h; obtain ⟨rfl, h'⟩ := h'; simp [h, setUL, setUR]
    · obtain ⟨rfl, h⟩ := h
      by_cases q : i = j
      · subst q; simp_all
      · have q' : ¬ j = i := fun w => q w.symm
        simp [h, q, q', setUL]
    · obtain ⟨rfl, h'⟩ := h'
      by_cases q : i = a
      · subst q; simp_all
      · simp [h', q, setUR]
    · by_cases q : i = j
      · subst q
        have : isLeaf N i = false := by simpa using h'
        by_cases q2 : i = a
        · subst q2; simp [this]
        · simp [this, q2]
      · have q' : ¬ j = i := fun w => q w.symm
        by_cases q2 : i = a
        · subst q2
          have : isLeaf N i = false := by simpa using h
          simp [this, q, q']
        · simp [q, q', q2]

theorem lr_linkUL : (trapAt (linkUL N a o) i).lowerRight = (trapAt N i).lowerRight := by
  cases o with
  | none =>
    simp only [link, trapAt_modTrap]
    by_cases h : i = a ∧ isLeaf N a = true
    · obtain ⟨rfl, h⟩ := h; simp [h, setUL]
    · simp [h]
  | some j =>
    simp only [link, trapAt_modTrap, isLeaf_modTrap]
    by_cases h : i = a ∧ isLeaf N a = true <;> by_cases h' : i = j ∧ isLeaf N j = true
    · obtain ⟨rfl, h⟩ := h; obtain ⟨rfl, h'⟩ := h'; simp [h, setUL, setUR]
    · obtain ⟨rfl, h⟩ := h
      by_cases q : i = j
      · subst q; simp_all
      · have q' : ¬ j = i := fun w => q w.symm
        simp [h, q, q', setUL]
    · obtain ⟨rfl, h'⟩ := h'
      by_cases q : i = a
      · subst q; simp_all
      · simp [h', q, setUR]
    · by_cases q : i = j
      · subst q
        have : isLeaf N i = false := by simpa using h'
        by_cases q2 : i = a
        · subst q2; simp [this]
        · simp [this, q2]
      · have q' : ¬ j = i := fun w => q w.symm
        by_cases q2 : i = a
        · subst q2
          have : isLeaf N i = false := by simpa using h
          simp [this, q, q']
        · simp [q, q', q2]

theorem ll_linkUL : (trapAt (linkUL N a o) i).lowerLeft = (trapAt N i).lowerLeft := by
  cases o with
  | none =>
    simp only [link, trapAt_modTrap]
    by_cases h : i = a ∧ isLeaf N a = true
    · obtain ⟨rfl, h⟩ := h; simp [h, setUL]
    · simp [h]
  | some j =>
    simp only [link, trapAt_modTrap, isLeaf_modTrap]
    by_cases h : i = a ∧ isLeaf N a = true <;> by_cases h' : i = j ∧ isLeaf N j = true
    · obtain ⟨rfl, h⟩ := h; obtain ⟨rfl, h'⟩ := h'; simp [h, setUL, setUR]
    · obtain ⟨rfl, h⟩ := h
      by_cases q : i = j
      · subst q; simp_all
      · have q' : ¬ j = i := fun w => q w.symm
        simp [h, q, q', setUL]
    · obtain ⟨rfl, h'⟩ := h'
      by_cases q : i = a
      · subst q; simp_all
      · simp [h', q, setUR]
    · by_cases q : i = j
      · subst q
        have : isLeaf N i = false := by simpa using h'
        by_cases q2 : i = a
        · subst q2; simp [this]
        · simp [this, q2]
      · have q' : ¬ j = i := fun w => q w.symm
        by_cases q2 : i = a
        · subst q2
          have : isLeaf N i = false := by simpa using h
          simp [this, q, q']
        · simp [q, q', q2]

theorem ur_linkLR : (trapAt (linkLR N a o) i).upperRight = (trapAt N i).upperRight := by
  cases o with
  | none =>
    simp only [link, trapAt_modTrap]
    by_cases h : i = a ∧ isLeaf N a = true
    · obtain ⟨rfl, h⟩ := h; simp [h, setLR]
    · simp [h]
  | some j =>
    simp only [link, trapAt_modTrap, isLeaf_modTrap]
    by_cases h : i = a ∧ isLeaf N a = true <;> by_cases h' : i = j ∧ isLeaf N j = true
    · obtain ⟨rfl, h⟩ := h; obtain ⟨rfl, h'⟩ := h'; simp [h, setLR, setLL]
    · obtain ⟨rfl, h⟩ := h
      by_cases q : i = j
      · subst q; simp_all
      · have q' : ¬ j = i := fun w => q w.symm
        simp [h, q, q', setLR]
    · obtain ⟨rfl, h'⟩ := h'
      by_cases q : i = a
      · subst q; simp_all
      · simp [h', q, setLL]
    · by_cases q : i = j
      · subst q
        have : isLeaf N i = false := by simpa using h'
        by_cases q2 : i = a
        · subst q2; simp [this]
        · simp [this, q2]
      · have q' : ¬ j = i := fun w => q w.symm
        by_cases q2 : i = a
        · subst q2
          have : isLeaf N i = false := by simpa using h
          simp [this, q, q']
        · simp [q, q', q2]

theorem ul_linkLR : (trapAt (linkLR N a o) i).upperLeft = (trapAt N i).upperLeft := by
  cases o with
  | none =>
    simp only [link, trapAt_modTrap]
    by_cases h : i = a ∧ isLeaf N a = true
    · obtain ⟨rfl, h⟩ := h; simp [h, setLR]
    · simp [h]
  | some j =>
    simp only [link, trapAt_modTrap, isLeaf_modTrap]
    by_cases h : i = a ∧ isLeaf N a = true <;> by_cases h' : i = j ∧ isLeaf N j = true
    · obtain ⟨rfl, h⟩ := h; obtain ⟨rfl, h'⟩ := h'; simp [h, setLR, setLL]
    · obtain ⟨rfl, h⟩ := h
      by_cases q : i = j
      · subst q; simp_all
      · have q' : ¬ j = i := fun w => q w.symm
        simp [h, q, q', setLR]
    · obtain ⟨rfl, h'⟩ := h'
      by_cases q : i = a
      · subst q; simp_all
      · simp [h', q, setLL]
    · by_cases q : i = j
      · subst q
        have : isLeaf N i = false := by simpa using h'
        by_cases q2 : i = a
        · subst q2; simp [this]
        · simp [this, q2]
      · have q' : ¬ j = i := fun w => q w.symm
        by_cases q2 : i = a
        · subst q2
          have : isLeaf N i = false := by simpa using h
          simp [this, q, q']
        · simp [q, q', q2]

theorem lr_linkLR : (trapAt (linkLR N a o) i).lowerRight = if i = a ∧ isLeaf N a = true then o else (trapAt N i).lowerRight := by
  cases o with
  | none =>
    simp only [link, trapAt_modTrap]
    by_cases h : i = a ∧ isLeaf N a = true
    · obtain ⟨rfl, h⟩ := h; simp [h, setLR]
    · simp [h]
  | some j =>
    simp only [link, trapAt_modTrap, isLeaf_modTrap]
    by_cases h : i = a ∧ isLeaf N a = true <;> by_cases h' : i = j ∧ isLeaf N j = true
    · obtain ⟨rfl, h⟩ := h; obtain ⟨rfl, h'⟩ := h'; simp [h, setLR, setLL]
    · obtain ⟨rfl, h⟩ := h
      by_cases q : i = j
      · subst q; simp_all
      · have q' : ¬ j = i := fun w => q w.symm
        simp [h, q, q', setLR]
    · obtain ⟨rfl, h'⟩ := h'
      by_cases q : i = a
      · subst q; simp_all
      · simp [h', q, setLL]
    · by_cases q : i = j
      · subst q
        have : isLeaf N i = false := by simpa using h'
        by_cases q2 : i = a
        · subst q2; simp [this]
        · simp [this, q2]
      · have q' : ¬ j = i := fun w => q w.symm
        by_cases q2 : i = a
        · subst q2
          have : isLeaf N i = false := by simpa using h
          simp [this, q, q']
        · simp [q, q', q2]

theorem ll_linkLR : (trapAt (linkLR N a o) i).lowerLeft = if o = some i ∧ isLeaf N i = true then some a else (trapAt N i).lowerLeft := by
  cases o with
  | none =>
    simp only [link, trapAt_modTrap]
    by_cases h : i = a ∧ isLeaf N a = true
    · obtain ⟨rfl, h⟩ := h; simp [h, setLR]
    · simp [h]
  | some j =>
    simp only [link, trapAt_modTrap, isLeaf_modTrap]
    by_cases h : i = a ∧ isLeaf N a = true <;> by_cases h' : i = j ∧ isLeaf N j = true
    · obtain ⟨rfl, h⟩ := h; obtain ⟨rfl, h'⟩ := h'; simp [h, setLR, setLL]
    · obtain ⟨rfl, h⟩ := h
      by_cases q : i = j
      · subst q; simp_all
      · have q' : ¬ j = i := fun w => q w.symm
        simp [h, q, q', setLR]
    · obtain ⟨rfl, h'⟩ := h'
      by_cases q : i = a
      · subst q; simp_all
      · simp [h', q, setLL]
    · by_cases q : i = j
      · subst q
        have : isLeaf N i = false := by simpa using h'
        by_cases q2 : i = a
        · subst q2; simp [this]
        · simp [this, q2]
      · have q' : ¬ j = i := fun w => q w.symm
        by_cases q2 : i = a
        · subst q2
          have : isLeaf N i = false := by simpa using h
          simp [this, q, q']
        · simp [q, q', q2]

theorem ur_linkLL : (trapAt (linkLL N a o) i).upperRight = (trapAt N i).upperRight := by
  cases o with
  | none =>
    simp only [link, trapAt_modTrap]
    by_cases h : i = a ∧ isLeaf N a = true
    · obtain ⟨rfl, h⟩ := h; simp [h, setLL]
    · simp [h]
  | some j =>
    simp only [link, trapAt_modTrap, isLeaf_modTrap]
    by_cases h : i = a ∧ isLeaf N a = true <;> by_cases h' : i = j ∧ isLeaf N j = true
    · obtain ⟨rfl, h⟩ := h; obtain ⟨rfl, h'⟩ := h'; simp [h, setLL, setLR]
    · obtain ⟨rfl, h⟩ := h
      by_cases q : i = j
      · subst q; simp_all
      · have q' : ¬ j = i := fun w => q w.symm
        simp [h, q, q', setLL]
    · obtain ⟨rfl, h'⟩ := h'
      by_cases q : i = a
      · subst q; simp_all
      · simp [h', q, setLR]
    · by_cases q : i = j
      · subst q
        have : isLeaf N i = false := by simpa using h'
        by_cases q2 : i = a
        · subst q2; simp [this]
        · simp [this, q2]
      · have q' : ¬ j = i := fun w => q w.symm
        by_cases q2 : i = a
        · subst q2
          have : isLeaf N i = false := by simpa using h
          simp [this, q, q']
        · simp [q, q', q2]

theorem ul_linkLL : (trapAt (linkLL N a o) i).upperLeft = (trapAt N i).upperLeft := by
  cases o with
  | none =>
    simp only [link, trapAt_modTrap]
    by_cases h : i = a ∧ isLeaf N a = true
    · obtain ⟨rfl, h⟩ := h; simp [h, setLL]
    · simp [h]
  | some j =>
    simp only [link, trapAt_modTrap, isLeaf_modTrap]
    by_cases h : i = a ∧ isLeaf N a = true <;> by_cases h' : i = j ∧ isLeaf N j = true
    · obtain ⟨rfl, h⟩ := h; obtain ⟨rfl, h'⟩ := h'; simp [h, setLL, setLR]
    · obtain ⟨rfl, h⟩ := h
      by_cases q : i = j
      · subst q; simp_all
      · have q' : ¬ j = i := fun w => q w.symm
        simp [h, q, q', setLL]
    · obtain ⟨rfl, h'⟩ := h'
      by_cases q : i = a
      · subst q; simp_all
      · simp [h', q, setLR]
    · by_cases q : i = j
      · subst q
        have : isLeaf N i = false := by simpa using h'
        by_cases q2 : i = a
        · subst q2; simp [this]
        · simp [this, q2]
      · have q' : ¬ j = i := fun w => q w.symm
        by_cases q2 : i = a
        · subst q2
          have : isLeaf N i = false := by simpa using h
          simp [this, q, q']
        · simp [q, q', q2]

theorem lr_linkLL : (trapAt (linkLL N a o) i).lowerRight = if o = some i ∧ isLeaf N i = true then some a else (trapAt N i).lowerRight := by
  cases o with
  | none =>
    simp only [link, trapAt_modTrap]
    by_cases h : i = a ∧ isLeaf N a = true
    · obtain ⟨rfl, h⟩ := h; simp [h, setLL]
    · simp [h]
  | some j =>
    simp only [link, trapAt_modTrap, isLeaf_modTrap]
    by_cases h : i = a ∧ isLeaf N a = true <;> by_cases h' : i = j ∧ isLeaf N j = true
    · obtain ⟨rfl, h⟩ := h; obtain ⟨rfl, h'⟩ := h'; simp [h, setLL, setLR]
    · obtain ⟨rfl, h⟩ := h
      by_cases q : i = j
      · subst q; simp_all
      · have q' : ¬ j = i := fun w => q w.symm
        simp [h, q, q', setLL]
    · obtain ⟨rfl, h'⟩ := h'
      by_cases q : i = a
      · subst q; simp_all
      · simp [h', q, setLR]
    · by_cases q : i = j
      · subst q
        have : isLeaf N i = false := by simpa using h'
        by_cases q2 : i = a
        · subst q2; simp [this]
        · simp [this, q2]
      · have q' : ¬ j = i := fun w => q w.symm
        by_cases q2 : i = a
        · subst q2
          have : isLeaf N i = false := by simpa using h
          simp [this, q, q']
        · simp [q, q', q2]

theorem ll_linkLL : (trapAt (linkLL N a o) i).lowerLeft = if i = a ∧ isLeaf N a = true then o else (trapAt N i).lowerLeft := by
  cases o with
  | none =>
    simp only [link, trapAt_modTrap]
    by_cases h : i = a ∧ isLeaf N a = true
    · obtain ⟨rfl, h⟩ := h; simp [h, setLL]
    · simp [h]
  | some j =>
    simp only [link, trapAt_modTrap, isLeaf_modTrap]
    by_cases h : i = a ∧ isLeaf N a = true <;> by_cases h' : i = j ∧ isLeaf N j = true
    · obtain ⟨rfl, h⟩ := h; obtain ⟨rfl, h'⟩ := h'; simp [h, setLL, setLR]
    · obtain ⟨rfl, h⟩ := h
      by_cases q : i = j
      · subst q; simp_all
      · have q' : ¬ j = i := fun w => q w.symm
        simp [h, q, q', setLL]
    · obtain ⟨rfl, h'⟩ := h'
      by_cases q : i = a
      · subst q; simp_all
      · simp [h', q, setLR]
    · by_cases q : i = j
      · subst q
        have : isLeaf N i = false := by simpa using h'
        by_cases q2 : i = a
        · subst q2; simp [this]
        · simp [this, q2]
      · have q' : ¬ j = i := fun w => q w.symm
        by_cases q2 : i = a
        · subst q2
          have : isLeaf N i = false := by simpa using h
          simp [this, q, q']
        · simp [q, q', q2]

end fields

section total
variable {edges : List Edge} {endpoints : List Point} {nodes : Nodes} {e t pa pb : Nat}

theorem attR_trapAt {M : Nodes} {pend : Node} {a b : Nat} {T : Trap} {ur lr : Option Nat} (hp : pend.isInner = true)
    {i : Nat} (hi : i < M.length) (ha : i ≠ a) (hb : i ≠ b) (h1 : ur ≠ some i) (h2 : lr ≠ some i) :
    trapAt (attR edges endpoints M pend e a b T ur lr).1 i = trapAt M i := by
  unfold attR
  split
  · rw [trapAt_link_ne hb h2, trapAt_link_ne ha h1]
  · have q : i ≠ M.length + 1 := by omega
    simp only
    rw [trapAt_link_ne q (by simpa using ha.symm), trapAt_link_ne q (by simpa using hb.symm), trapAt_link_ne q h1,
      trapAt_link_ne q h2, trapAt_append_leaf, if_neg (by simpa using q), trapAt_append_inner _ hp]

theorem attL_trapAt {M : Nodes} {pend : Node} {a b : Nat} {T : Trap} {ur lr : Option Nat} (hp : pend.isInner = true)
    {i : Nat} (hi : i < M.length) (ha : i ≠ a) (hb : i ≠ b) (h1 : ur ≠ some i) (h2 : lr ≠ some i) :
    trapAt (attL edges endpoints M pend e a b T ur lr).1 i = trapAt M i := by
  unfold attL
  split
  · rw [trapAt_link_ne hb h2, trapAt_link_ne ha h1]
  · have q : i ≠ M.length + 1 := by omega
    simp only
    rw [trapAt_link_ne q (by simpa using ha.symm), trapAt_link_ne q (by simpa using hb.symm), trapAt_link_ne q h1,
      trapAt_link_ne q h2, trapAt_append_leaf, if_neg (by simpa using q), trapAt_append_inner _ hp]

theorem addEdgeToSingle_total (ht : isLeaf nodes t = true) (hL : LinksOk nodes t (trapAt nodes t)) :
    addEdgeToSingle edges endpoints nodes e t = .ok (singleP edges endpoints nodes e t (trapAt nodes t).upperRight
      (trapAt nodes t).lowerRight (trapAt nodes t).upperLeft (trapAt nodes t).lowerLeft) := by
  have htl := isLeaf_lt ht
  have hp : (Node.y e (nodes.length + 1) nodes.length).isInner = true := rfl
  set M := twoTraps edges nodes e (edgeAt edges e).left (edgeAt edges e).right (trapAt nodes t) with hM
  have hb : trapAt M t = trapAt nodes t := by
    rw [hM, twoTraps_trapAt, if_neg (by omega), if_neg (by omega)]
  have hlM : ∀ i, isLeaf nodes i = true → isLeaf M i = true := fun i hi => by rw [hM, twoTraps_isLeaf, hi]; simp
  have lM : M.length = nodes.length + 2 := twoTraps_length
  rw [addEdgeToSingle_eq ht, attachRight_total hp hb (hlM t ht) (hL.mono hlM) (by omega) (by omega)]
  simp only [bind, Except.bind]
  rw [attachLeft_total (T := trapAt nodes t) (attR_pend_inner hp)]
  · simp only
    rw [replaceNode_append]
    rfl
  · rw [attR_trapAt hp (by omega) (by omega) (by omega) (fun q => (hL.ur q).2 rfl) (fun q => (hL.lr q).2 rfl), hb]
  · rw [attR_isLeaf hp]; split <;> simp [hlM t ht]
  · refine (hL.mono hlM).mono ?_
    intro i hi
    rw [attR_isLeaf hp]; split <;> simp [hi]
  · omega
  · omega

theorem addEdgeToFirst_total (ht : isLeaf nodes t = true) (hL : LinksOk nodes t (trapAt nodes t)) :
    addEdgeToFirst edges endpoints nodes e t = .ok (firstP edges endpoints nodes e t (trapAt nodes t).upperRight
      (trapAt nodes t).lowerRight (trapAt nodes t).upperLeft (trapAt nodes t).lowerLeft, nodes.length,
      nodes.length + 1) := by
  have htl := isLeaf_lt ht
  have hp : (Node.y e (nodes.length + 1) nodes.length).isInner = true := rfl
  set M := twoTraps edges nodes e (edgeAt edges e).left (trapAt nodes t).right (trapAt nodes t) with hM
  have hb : trapAt M t = trapAt nodes t := by
    rw [hM, twoTraps_trapAt, if_neg (by omega), if_neg (by omega)]
  have hlM : ∀ i, isLeaf nodes i = true → isLeaf M i = true := fun i hi => by rw [hM, twoTraps_isLeaf, hi]; simp
  have lM : M.length = nodes.length + 2 := twoTraps_length
  have hpi : ∀ ul ll, (attL edges endpoints M (.y e (nodes.length + 1) nodes.length) e nodes.length
      (nodes.length + 1) (trapAt nodes t) ul ll).2.isInner = true := fun ul ll => attL_pend_inner hp
  rw [addEdgeToFirst_eq ht, attachLeft_total hp hb (hlM t ht) (hL.mono hlM) (by omega) (by omega)]
  simp only [bind, Except.bind]
  set X := attL edges endpoints M (.y e (nodes.length + 1) nodes.length) e nodes.length
      (nodes.length + 1) (trapAt nodes t) (trapAt nodes t).upperLeft (trapAt nodes t).lowerLeft with hX
  have hlX : ∀ i, isLeaf nodes i = true → isLeaf (X.1 ++ [X.2]) i = true := by
    intro i hi
    rw [isLeaf_append_inner _ (hpi _ _), hX, attL_isLeaf hp]; split <;> simp [hlM i hi]
  have hXt : trapAt (X.1 ++ [X.2]) t = trapAt nodes t := by
    rw [trapAt_append_inner _ (hpi _ _), hX,
      attL_trapAt hp (by omega) (by omega) (by omega) (fun q => (hL.ul q).2 rfl) (fun q => (hL.ll q).2 rfl), hb]
  rw [hXt, maybeUR (fun j hj => hlX j (hL.ur hj).1)]
  simp only
  rw [trapAt_link_ne (by omega) (fun q => (hL.ur q).2 rfl), hXt,
    maybeLR (fun j hj => by rw [isLeaf_link]; exact hlX j (hL.lr hj).1)]
  simp only
  rw [link_append_inner (hpi _ _), link_append_inner (hpi _ _), replaceNode_append' (by simp only [link_length])]
  simp only [pure, Except.pure]
  rfl

theorem extA_trapAt {prev right : Nat} {ul : Option Nat} {i : Nat} (hi : i < nodes.length) (hp : i ≠ prev) (h1 : ul ≠ some i) :
    trapAt (extA edges nodes e t prev right ul).1 i = trapAt nodes i := by
  unfold extA
  split
  · simp only [trapAt_modTrap]; rw [if_neg (by tauto)]
  · simp only
    rw [trapAt_link_ne (by omega) h1, trapAt_link_ne (by omega) (by simpa using hp.symm), trapAt_append_leaf,
      if_neg (by omega)]

theorem extB_trapAt {prev right : Nat} {ul : Option Nat} {i : Nat} (hi : i < nodes.length) (hp : i ≠ prev) (h1 : ul ≠ some i) :
    trapAt (extB edges nodes e t prev right ul).1 i = trapAt nodes i := by
  unfold extB
  split
  · simp only [trapAt_modTrap]; rw [if_neg (by tauto)]
  · simp only
    rw [trapAt_link_ne (by omega) h1, trapAt_link_ne (by omega) (by simpa using hp.symm), trapAt_append_leaf,
      if_neg (by omega)]

theorem extA_leaf_mono {prev right : Nat} {ul : Option Nat} {i : Nat} (h : isLeaf nodes i = true) :
    isLeaf (extA edges nodes e t prev right ul).1 i = true := by
  rw [extA_isLeaf]; split <;> simp [h]

theorem extB_leaf_mono {prev right : Nat} {ul : Option Nat} {i : Nat} (h : isLeaf nodes i = true) :
    isLeaf (extB edges nodes e t prev right ul).1 i = true := by
  rw [extB_isLeaf]; split <;> simp [h]

theorem extendAbove_total {prev right : Nat} (ht : isLeaf nodes t = true) (hL : LinksOk nodes t (trapAt nodes t))
    (hp : prev ≠ t) : extendAbove edges nodes e t prev right =
      .ok (extA edges nodes e t prev right (trapAt nodes t).upperLeft) := by
  have htl := isLeaf_lt ht
  unfold extendAbove extA
  by_cases hc : (trapAt nodes prev).above = (trapAt nodes t).above
  · rw [if_pos hc, if_pos hc]; rfl
  · rw [if_neg hc, if_neg hc]
    simp only [createTrapezoid_eq]
    have h1 : trapAt (setAsLowerLeft (nodes ++ [.leaf (mkTrap edges (trapAt nodes t).left right e (trapAt nodes t).above)])
        nodes.length prev) t = trapAt nodes t := by
      show trapAt (linkLL _ _ (some prev)) t = _
      rw [trapAt_link_ne (by omega) (by simpa using hp), trapAt_append_leaf, if_neg (by omega)]
    rw [h1, maybeUL (fun j hj => ?_)]
    · rfl
    · show isLeaf (linkLL _ _ (some prev)) j = true
      rw [isLeaf_link, isLeaf_append_leaf, (hL.ul hj).1]; simp

theorem extendBelow_total {prev right : Nat} (ht : isLeaf nodes t = true) (hL : LinksOk nodes t (trapAt nodes t))
    (hp : prev ≠ t) : extendBelow edges nodes e t prev right =
      .ok (extB edges nodes e t prev right (trapAt nodes t).lowerLeft) := by
  have htl := isLeaf_lt ht
  unfold extendBelow extB
  by_cases hc : (trapAt nodes prev).below = (trapAt nodes t).below
  · rw [if_pos hc, if_pos hc]; rfl
  · rw [if_neg hc, if_neg hc]
    simp only [createTrapezoid_eq]
    have h1 : trapAt (setAsUpperLeft (nodes ++ [.leaf (mkTrap edges (trapAt nodes t).left right (trapAt nodes t).below e)])
        nodes.length prev) t = trapAt nodes t := by
      show trapAt (linkUL _ _ (some prev)) t = _
      rw [trapAt_link_ne (by omega) (by simpa using hp), trapAt_append_leaf, if_neg (by omega)]
    rw [h1, maybeLL (fun j hj => ?_)]
    · rfl
    · show isLeaf (linkUL _ _ (some prev)) j = true
      rw [isLeaf_link, isLeaf_append_leaf, (hL.ll hj).1]; simp

theorem addEdgeToMiddle_total (ht : isLeaf nodes t = true) (hL : LinksOk nodes t (trapAt nodes t))
    (hat : pa ≠ t) (hbt : pb ≠ t) :
    addEdgeToMiddle edges nodes e t pa pb = .ok (middleP edges nodes e t pa pb (trapAt nodes t).upperRight
      (trapAt nodes t).lowerRight (trapAt nodes t).upperLeft (trapAt nodes t).lowerLeft) := by
  have htl := isLeaf_lt ht
  set A := extA edges nodes e t pa (trapAt nodes t).right (trapAt nodes t).upperLeft with hA
  have hAt : trapAt A.1 t = trapAt nodes t := extA_trapAt htl hat.symm (fun q => (hL.ul q).2 rfl)
  have lA : nodes.length ≤ A.1.length := by rw [hA, extA_length]; split <;> omega
  have hLA : LinksOk A.1 t (trapAt A.1 t) := by rw [hAt]; exact hL.mono fun i hi => extA_leaf_mono hi
  set B := extB edges A.1 e t pb (trapAt nodes t).right (trapAt nodes t).lowerLeft with hB
  have hBt : trapAt B.1 t = trapAt nodes t := by
    rw [hB, extB_trapAt (by omega) hbt.symm (fun q => (hL.ll q).2 rfl), hAt]
  have hLB : LinksOk B.1 t (trapAt nodes t) := (hAt ▸ hLA).mono fun i hi => extB_leaf_mono hi
  have a1 : A.2 ≠ t := by rw [hA, extA_snd]; split <;> omega
  unfold addEdgeToMiddle
  rw [extendAbove_total ht hL hat]
  simp only [bind, Except.bind]
  rw [← hA, hAt, extendBelow_total (extA_leaf_mono ht) hLA hbt, hAt]
  simp only
  rw [← hB, hBt, maybeUR (fun j hj => (hLB.ur hj).1)]
  simp only
  rw [trapAt_link_ne a1.symm (fun q => (hL.ur q).2 rfl), hBt,
    maybeLR (fun j hj => by rw [isLeaf_link]; exact (hLB.lr hj).1)]
  simp only [createYNode]
  rw [replaceNode_append]
  rfl

theorem addEdgeToLast_total (ht : isLeaf nodes t = true) (hL : LinksOk nodes t (trapAt nodes t))
    (hat : pa ≠ t) (hbt : pb ≠ t) :
    addEdgeToLast edges endpoints nodes e t pa pb = .ok (lastP edges endpoints nodes e t pa pb
      (trapAt nodes t).upperRight
      (trapAt nodes t).lowerRight (trapAt nodes t).upperLeft (trapAt nodes t).lowerLeft).1 := by
  have htl := isLeaf_lt ht
  set A := extA edges nodes e t pa (edgeAt edges e).right (trapAt nodes t).upperLeft with hA
  have hAt : trapAt A.1 t = trapAt nodes t := extA_trapAt htl hat.symm (fun q => (hL.ul q).2 rfl)
  have lA : nodes.length ≤ A.1.length := by rw [hA, extA_length]; split <;> omega
  have hLA : LinksOk A.1 t (trapAt A.1 t) := by rw [hAt]; exact hL.mono fun i hi => extA_leaf_mono hi
  set B := extB edges A.1 e t pb (edgeAt edges e).right (trapAt nodes t).lowerLeft with hB
  have hBt : trapAt B.1 t = trapAt nodes t := by
    rw [hB, extB_trapAt (by omega) hbt.symm (fun q => (hL.ll q).2 rfl), hAt]
  have lB : A.1.length ≤ B.1.length := by rw [hB, extB_length]; split <;> omega
  have hLB : LinksOk B.1 t (trapAt nodes t) := (hAt ▸ hLA).mono fun i hi => extB_leaf_mono hi
  have a1 : A.2 ≠ t := by rw [hA, extA_snd]; split <;> omega
  have b1 : B.2 ≠ t := by rw [hB, extB_snd]; split <;> omega
  unfold addEdgeToLast
  simp only
  rw [extendAbove_total ht hL hat]
  simp only [bind, Except.bind]
  rw [← hA, extendBelow_total (extA_leaf_mono ht) hLA hbt, hAt]
  simp only [createYNode]
  rw [← hB, attachRight_total rfl hBt (extB_leaf_mono (extA_leaf_mono ht)) hLB a1 b1]
  simp only
  rw [replaceNode_append]
  rfl
end total

end Rene.Seidel
