#!/usr/bin/env python3
"""seeded/LOG.jsonl from /tmp/mut/results.jsonl and the specifications; earlier entries of LOG.jsonl are kept if their id has no newer result."""
import json, glob, pathlib
LOG = pathlib.Path('/verif/seeded/LOG.jsonl')
TIGHT = {
 'm2-46': ['C17_arguments'], 'm2-55': ['C17_group_partial (RangeResult.optimal)'], 'm2-63': ['C21_spectrum_scales', 'C58_spectrum'],
 'm3-12': ['C53_fit (InRange.folded)'], 'm3-19': ['C25_missing_background'], 'm3-36': ['C44_stat_names'],
 'm3-77': ['C53_pearson_partial', 'C53_pearson_refuted'], 'm4-13': ['C28_listed_once'], 'm4-56': ['C32_number_of_parts'],
 'm4-95': ['C65_two_ends'], 'm4-103': ['C66_gaussian_line'], 'm5-26': ['C70_methods'], 'm5-121': ['C84_reff_mcmc'],
 'm7-02': ['C87_errors'], 'm7-03': ['C87_errors'], 'm7-13': ['C87_errors'], 'm7-18': ['C87_getitem'], 'm7-19': ['C88_required'], 'm7-48': ['C90_default'],
 'm7-58': ['C91_slots'], 'm7-72': ['C91_defaults'], 'm7-101': ['C94_sim_band'], 'm7-117': ['C95_labels'], 'm7-118': ['C95_labels'],
 'm8-22': ['C96_group'], 'm8-23': ['C96_group'], 'm10-81': ['C113_rounded'], 'm10-21': ['C148_rule_partial']}
EQUIV = {
 'm14-33': 'killed after tightening: m18-30', 'm14-40': 'killed after tightening: m18-31',
 'm13-14': 'killed: the model is shared with C146, whose theorems fail first, so that the file of this property is not reached',
 'm13-15': 'killed: the model is shared with C146, whose theorems fail first, so that the file of this property is not reached',
 'm13-16': 'killed: the model is shared with C146, whose theorems fail first, so that the file of this property is not reached',
 'm13-17': 'killed: the model is shared with C146, whose theorems fail first, so that the file of this property is not reached',
 'm13-18': 'killed: the model is shared with C146, whose theorems fail first, so that the file of this property is not reached',
 'm13-19': 'killed: the model is shared with C146, whose theorems fail first, so that the file of this property is not reached',
 'm13-20': 'killed: the model is shared with C146, whose theorems fail first, so that the file of this property is not reached',
 'm13-21': 'killed: the model is shared with C146, whose theorems fail first, so that the file of this property is not reached',
 'm13-22': 'killed: the model is shared with C146, whose theorems fail first, so that the file of this property is not reached',
 'm13-23': 'killed: the model is shared with C146, whose theorems fail first, so that the file of this property is not reached',
 'm13-29': 'killed: the model is shared with C146, whose theorems fail first, so that the file of this property is not reached',
 'm13-30': 'killed: the model is shared with C146, whose theorems fail first, so that the file of this property is not reached',
 'm13-31': 'killed: the model is shared with C146, whose theorems fail first, so that the file of this property is not reached',
 'm13-32': 'killed: the model is shared with C146, whose theorems fail first, so that the file of this property is not reached',
 'm13-33': 'killed: the model is shared with C146, whose theorems fail first, so that the file of this property is not reached',
 'm13-34': 'killed: the model is shared with C146, whose theorems fail first, so that the file of this property is not reached',
 'm13-35': 'killed: the model is shared with C146, whose theorems fail first, so that the file of this property is not reached',
 'm13-36': 'killed: the model is shared with C146, whose theorems fail first, so that the file of this property is not reached',
 'm13-37': 'killed: the model is shared with C146, whose theorems fail first, so that the file of this property is not reached',
 'm13-38': 'killed: the model is shared with C146, whose theorems fail first, so that the file of this property is not reached',
 'm13-39': 'killed: the model is shared with C146, whose theorems fail first, so that the file of this property is not reached',
 'm11-31': 'killed by C133_defaults, which states this for every class; C148 compares values at given parameters',
 'm11-41': 'killed by C144 (group_counts, group_min, group_opt), on which the file of C145 depends',
 'm11-42': 'killed by C144 (group_counts, group_min, group_opt), on which the file of C145 depends',
 'm10-05': 'the claim stays true: 1 - v/c stays positive for every negative velocity (m11 tests the other bound)',
 'm10-21': 'filed under the wrong property (C132 does not look at spectra); killed by C133 and C148 in m11',
 'm10-81': 'the branch is only reached through rounding; killed after adding C113_rounded (m11)',
 'm10-16': 'killed: the theorems of this property are built on the declaration that fails',
 'm10-17': 'killed: the theorems of this property are built on the declaration that fails',
 'm10-18': 'killed: the theorems of this property are built on the declaration that fails',
 'm10-19': 'killed: the theorems of this property are built on the declaration that fails',
 'm10-20': 'killed: the theorems of this property are built on the declaration that fails',
 'm10-63': 'killed: the theorems of this property are built on the declaration that fails',
 'm10-64': 'killed: the theorems of this property are built on the declaration that fails',
 'm10-65': 'killed: the theorems of this property are built on the declaration that fails',
 'm10-66': 'killed: the theorems of this property are built on the declaration that fails',
 'm3-77': 'killed after tightening: m7-01', 'm8-22': 'killed after tightening: m9-22', 'm8-23': 'killed after tightening: m9-23', 'm8-34': 'killed: m9-24 (C60)',
 'm4-57': 'survived C32 (the text of the parts is only a key there); the display name is now covered by C110_latex, which kills the same edit (auto: Mod.latex)',
 'm5-50': 'equivalent: the parameters that are not selected are never reported',
 'm5-87': 'equivalent: the first plot then rebuilds an empty cache',
 'm5-26': 'killed after tightening: m6-23', 'm5-121': 'killed after tightening: m6-22',
 'm4-13': 'equivalent without reuse of addresses for the original theorem; the added theorem kills it'}
spec, order = {}, []
for f in sorted(glob.glob('/tmp/mut/m[0-9]*.json')) + ['/tmp/mut/redo.json']:
    try: L = json.load(open(f))
    except FileNotFoundError: continue
    for m in L:
        if m['id'] not in spec: order.append(m['id'])
        spec[m['id']] = m
res = {}
for l in open('/tmp/mut/results.jsonl'):
    r = json.loads(l); res.setdefault(r['id'], []).append(r)
old = {}
if LOG.exists():
    for l in LOG.read_text().splitlines():
        if l.strip():
            e = json.loads(l); old[e['id']] = e
new = dict(old)
for i in order:
    if i not in res: continue
    m, rs = spec[i], res[i]
    r = rs[-1]
    first = rs[0]
    e = {'id': i, 'file': m['file'], 'definition': m['def'], 'edit': {'from': m['old'], 'to': m['new']}, 'property': m['prop'],
         'claim_broken': m['claim'], 'status': r['status'], 'theorems_failed': r.get('failed', []), 'first_errors_in': r.get('direct', []),
         'theorems_tightened': TIGHT.get(i, [])}
    if first['status'] != r['status']: e['first_attempt'] = first['status']
    if i in EQUIV: e['note'] = EQUIV[i]
    if r['status'].startswith('AMBIGUOUS') or r['status'] in ('NOMATCH', 'MODEL_ERROR'): continue
    new[i] = e
for i in EQUIV:
    if i in new: new[i]['note'] = EQUIV[i]
# automatic edits (tools/automut.py, tools/autoredo.py): one entry per edit, the last result counts
WHY = {
 ('spread', ''): 'unreachable: the grouping array has as many entries as the mask', ('assemble', ''): 'unreachable: a segment of one channel has a grouping of length one, both tests fail together',
 ('Obs.group', 'getD'): 'default of a scale that is required before this line', ('Rmf.build', ''): 'DETCHANS missing: the constructor refuses either default',
 ('optLoop', ''): 'block whose condition never holds (see C03)', ('groupScaleData', ''): 'getD default, index is in range', ('groupBackRatio', ''): 'getD default, index is in range',
 ('relEff', ''): 'division by one', ('observed', ''): 'cstat has no background: the argument is not used', ('sortByIndex', ''): 'unreachable: the names were checked before',
 ('fromDataInput', ''): 'area of a background that does not exist', ('creates', ''): 'class without that attribute: refused before', ('exClass2', ''): 'an example, not the model',
 ('slotStep', ''): 'unreachable: a slot always has a parameter', ('checkInterval', ''): 'text of the error message', ('mkLinLog', ''): 'text of the error message',
 ('setLinFrac', ''): 'text of the error message', ('colorGradient', ''): 'text of the error message', ('Norm.init', ''): 'overwritten by the setter that follows',
 ('tableLookup', ''): 'unreachable: the key was validated by the setter', ('stripFlagAux', ''): 'fuel pattern, an equivalent program',
 ('Obs.preData', ''): 'ratio of a data set without background: not used', ('loadResponse', ''): 'kind of the exception; the claim says only that it is refused',
 ('loadData', ''): 'kind of the exception; the claim says only that it is refused', ('fitInParallel', ''): 'kind of the exception; the claim says only that it raises',
 ('checkFn', ''): 'kind of the exception; the claim says only that it raises', ('checkRtol', ''): 'kind of the exception; the claim says only that it raises', ('zeusRandom', ''): 'kind of the exception; the claim says only that it raises',
 ('minOf', ''): 'never called on an empty list', ('maxOf', ''): 'never called on an empty list', ('sigErr', ''): 'the significance is not defined there', ('listen', ''): 'unreachable: all chains have finished',
 ('nutsInit', ''): 'NaN in the code, replaced before it is read', ('sampleStats', ''): 'unreachable, see C81', ('ultranestLabels', ''): 'equivalent: the names are distinct',
 ('emceeAfter', ''): 'equivalent program', ('Mod.additiveComps', ''): 'equivalent for a single component', ('eps', ''): 'the claim says only that the point lies strictly inside',
 ('abundances', ''): 'the list of accepted names is data; the claim is about every name in it', ('blackbody', ''): 'the value of the masked branch is not used', ('scaleColor', ''): 'text of the error message',
 ('Cls.config', ''): 'default of a parameter or end of a bound: the claim says that defaults lie inside and that nothing within the bounds fails; killed by C133_defaults where the default leaves the bounds',
 ('ConvCls.config', ''): 'another admissible bound: the claim says that nothing within the bounds fails', ('Cfg.init', ''): 'text of a LaTeX label',
 ('devianceOf', ''): 'kind of the exception raised for a malformed file; not part of a claim'}
WHY2 = json.loads((pathlib.Path('/verif/tools/autonotes.json')).read_text()) if pathlib.Path('/verif/tools/autonotes.json').exists() else {}
auto = {}
for l in open('/tmp/mut/auto.jsonl'):
    r = json.loads(l); auto.setdefault((r['file'], r['definition'], r['edit']['line']), []).append(r)
for n, (k, rs) in enumerate(auto.items(), 1):
    r = rs[-1]
    if r['status'] == 'MODEL_ERROR': continue
    pre, rest = k[2].split('⟦', 1); mid, post = rest.split('⟧', 1)
    fr, _, to = mid.partition('→') if mid.count('→') == 1 else (mid, '', '')
    e = {'id': f'auto-{n}', 'file': k[0], 'definition': k[1], 'edit': {'from': pre + fr + post, 'to': pre + to + post} if to else {'line': k[2]},
         'claim_broken': 'what the theorems say of ' + k[1] + ' (edit made by tools/automut.py)', 'status': r['status'],
         'theorems_failed': r['hits'], 'theorems_tightened': []}
    if rs[0]['status'] == 'SURVIVED' and r['status'] != 'SURVIVED':
        e['first_attempt'] = 'SURVIVED'; e['theorems_tightened'] = [h.split("', '")[-1].rstrip("')") for h in r['hits'][:1]]
    if r['status'] == 'SURVIVED': e['note'] = WHY2.get(k[1] + '|' + k[2]) or next((w for (d, t), w in WHY.items() if d == k[1] and t in k[2]), '')
    new[f'auto-{n}'] = e
LOG.parent.mkdir(exist_ok=True)
LOG.write_text(''.join(json.dumps(e, ensure_ascii=False) + '\n' for e in new.values()))
import collections
print(len(new), collections.Counter(e['status'] for e in new.values()))
for e in new.values():
    if not e['status'].startswith('killed'): print(e['id'], e['status'], e['claim_broken'], '|', e.get('note', ''))
