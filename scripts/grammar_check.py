#!/usr/bin/env python3
"""Compare lean/Verif/Spec/Pest.lean with src/parser/expression_grammar.pest, rule by rule.

Not part of any proof: it only checks that the transcription of the grammar has no typing errors.
usage: grammar_check.py GRAMMAR.pest Pest.lean
"""
import re
import sys



def unescape(s):
    return re.sub(r"\\(.)", lambda m: {"n": "\n", "r": "\r", "t": "\t"}.get(m[1], m[1]), s)


def seq(l):
    out = []
    for x in l:
        out += x[1] if x[0] == "seq" else [x]
    return out[0] if len(out) == 1 else ("seq", out)


def alt(l):
    out = []
    for x in l:
        out += x[1] if x[0] == "alt" else [x]
    return out[0] if len(out) == 1 else ("alt", out)


def pest(text):
    text = re.sub(r'("(?:\\.|[^"\\])*")|//[^\n]*', lambda m: m[1] or "", text)
    rules = {}
    for m in re.finditer(r'(\w+)\s*=\s*[@_]?\{((?:"(?:\\.|[^"\\])*"|[^"}])*)\}', text):
        toks = re.findall(r'"(?:\\.|[^"\\])*"|\w+|[~|*+?!()^]', m[2])
        pos = 0

        def choice():
            nonlocal pos
            l = [sequence()]
            while pos < len(toks) and toks[pos] == "|":
                pos += 1
                l.append(sequence())
            return alt(l)

        def sequence():
            nonlocal pos
            l = [term()]
            while pos < len(toks) and toks[pos] == "~":
                pos += 1
                l.append(term())
            return seq(l)

        def term():
            nonlocal pos
            t = toks[pos]
            pos += 1
            if t == "!":
                return ("no", term())
            if t == "(":
                x = choice()
                assert toks[pos] == ")"
                pos += 1
            elif t == "^":
                x = ("litI", unescape(toks[pos][1:-1]))
                pos += 1
            elif t[0] == '"':
                x = ("lit", unescape(t[1:-1]))
            else:
                x = ("rule", t)
            while pos < len(toks) and toks[pos] in "*+?":
                x = ({"*": "star", "+": "plus", "?": "opt"}[toks[pos]], x)
                pos += 1
            return x

        x = choice()
        assert pos == len(toks), (m[1], toks[pos:])
        assert m[1] not in rules
        rules[m[1]] = x
    return rules


BUILTIN = {".any": "ANY", ".digit": "ASCII_DIGIT", ".alpha": "ASCII_ALPHA", ".alnum": "ASCII_ALPHANUMERIC",
           ".newline": "NEWLINE", ".soi": "SOI", ".eoi": "EOI"}


def lean(text):
    body = text[text.index("def grammar : R → G"):text.index("inductive Peg")]
    body = body[body.index("\n"):body.rindex("/--")]
    toks = re.findall(r'cs!"(?:\\.|[^"\\])*"|~~|///|=>|\.?[A-Za-z_]\w*|[|()]', body)
    pos = 0
    rules = {}

    def choice():
        nonlocal pos
        l = [sequence()]
        while pos < len(toks) and toks[pos] == "///":
            pos += 1
            l.append(sequence())
        return alt(l)

    def sequence():
        nonlocal pos
        l = [term()]
        while pos < len(toks) and toks[pos] == "~~":
            pos += 1
            l.append(term())
        return seq(l)

    def atom():
        nonlocal pos
        t = toks[pos]
        pos += 1
        if t == "(":
            x = choice()
            assert toks[pos] == ")", toks[pos - 3:pos + 3]
            pos += 1
            return x
        if t in BUILTIN:
            return ("rule", BUILTIN[t])
        assert t[0] != ".", t
        return ("rule", t)

    def term():
        nonlocal pos
        t = toks[pos]
        if t in (".lit", ".litI"):
            x = (t[1:], unescape(toks[pos + 1][4:-1]))
            pos += 2
            return x
        if t in (".star", ".plus", ".opt", ".no"):
            pos += 1
            return (t[1:], atom())
        return atom()

    while pos < len(toks):
        assert toks[pos] == "|" and toks[pos + 2] == "=>", toks[pos:pos + 3]
        name = toks[pos + 1]
        pos += 3
        assert name not in rules
        rules[name] = choice()
    return rules


a = pest(open(sys.argv[1]).read())
b = lean(open(sys.argv[2]).read())
bad = [r for r in sorted(set(a) | set(b)) if a.get(r) != b.get(r)]
for r in bad:
    print(r, a.get(r), b.get(r), sep="\n  ")
print(len(a), "rules in the grammar file,", len(b), "in the transcription,", len(bad), "differ")
sys.exit(bool(bad))
