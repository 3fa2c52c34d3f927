"""Writes lean/Verif/Data/*.lean from the dictionary files of /repo: every row of every file, in the order of the file."""
import os
repo = '/repo/soynlp/'
out = os.path.dirname(os.path.dirname(os.path.abspath(__file__))) + '/lean/Verif/Data/'
os.makedirs(out, exist_ok=True)
CH = 100
def chunks(xs): return [xs[i:i + CH] for i in range(0, len(xs), CH)]
def plain(w): assert not any(c in w for c in '"\\ \t\r\n') and w, repr(w)
def rows(name, path):
    text = open(repo + path, encoding='utf-8', newline='').read()
    rs = [l.split(' ') for l in text.split('\n')[:-1]]
    assert all(len(r) == 2 and str(int(r[1])) == r[1] for r in rs)
    assert ''.join('%s %s\n' % tuple(r) for r in rs) == text
    for r in rs: plain(r[0])
    return emit(name, path, 'List (Str × Nat)', 'rows!', [' '.join(' '.join(r) for r in c) for c in chunks(rs)])
def lines(name, path):
    text = open(repo + path, encoding='utf-8', newline='').read()
    last = text.endswith('\n')
    ws = text.split('\n')
    if last: ws = ws[:-1]
    for w in ws: plain(w)
    return emit(name, path, 'List Str', 'words!', [' '.join(c) for c in chunks(ws)], '' if last else ' The file has no final newline.')
def count(mac, c): return len(c.split(' ')) // (2 if mac == 'rows!' else 1)
def emit(name, path, ty, mac, cs, more=''):
    o = 'import Verif.Py.Words\n/-! Generated by tools/gen_packaged.py from soynlp/%s: do not edit. -/\nnamespace Data\nopen Py\n' % path
    for i, c in enumerate(cs):
        o += '\n/-- soynlp/%s:%d-%d -/\ndef %s%d : %s := %s "%s"\n' % (path, CH * i + 1, CH * i + count(mac, c), name, i, ty, mac, c)
    o += '\n/-- the parts of soynlp/%s in order.%s -/\ndef %sParts : List (%s) := [%s]\n' % (path, more, name, ty, ', '.join('%s%d' % (name, i) for i in range(len(cs))))
    o += '\n/-- all rows of soynlp/%s in order.%s -/\ndef %s : %s := %sParts.flatten\nend Data\n' % (path, more, name, ty, name)
    open(out + name[0].upper() + name[1:] + '.lean', 'w').write(o)
rows('adjectives', 'lemmatizer/dictionary/default/Stem/Adjective.txt')
rows('verbs', 'lemmatizer/dictionary/default/Stem/Verb.txt')
rows('eomis', 'lemmatizer/dictionary/default/Eomi/Eomi.txt')
rows('adverbs', 'postagger/dictionary/default/Adverb/adverb.txt')
lines('josas', 'postagger/dictionary/default/Josa/josa_chat.txt')
lines('frequentJosas', 'noun/frequent_enrolled_josa.txt')
lines('nounSuffixes', 'noun/frequent_noun_suffix.txt')
